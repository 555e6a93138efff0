import Verif.Proofs.CObjects
import Verif.Props.Repeat
import Verif.Spec.DemoImage

/-! # Programs that use several objects of the library from C (C88) -/

namespace Verif.Props

open Spec

variable {s : Sys} {w : World} {k k' W H : ℕ} {name : Option String} {p : Option Params} {post post' : List COp} {obs obs' : List CObs}
  {rw rh rw' rh' : Option (List Res)} {cw ch cw' ch' : ℕ} {ptr ptr' : Ptrs}

/-- **C88** A program that uses any number of parameter objects, analyses and lists, interleaved in any way with each other and with
anything else it does, never breaks memory, whichever allocations fail: every call has a defined outcome, whatever the program holds
stays allocated until it releases it, and two analyses have no memory in common. -/
theorem C88_programs (hs : Build s) (hw : w.WF) {ops : List COp} (hc : Carefully s {} ops w) :
    ∃ obs st w1, cRun s {} ops w = some ((obs, st), w1) ∧ obs.length = ops.length ∧ w1.WF ∧ (∀ b ∈ CState.held st, b ∈ w1.live) ∧
      ∀ (i j : ℕ) (a b : Analysis), i ≠ j → st.analyses[i]? = some (some a) → st.analyses[j]? = some (some b) → ∀ x ∈ owned a, x ∉ owned b := by
  obtain ⟨obs, st, w1, e1, hl, base, leak, h1, _⟩ := runs_c hs ops (Tracks.init hw) hc
  refine ⟨obs, st, w1, e1, hl, h1.rel.wf, fun b hb => (h1.rel.live b).mpr (Or.inr (List.mem_append_left _ ((h1.held b).mp hb))), ?_⟩
  intro i j a b hij hi hj x hx hx'
  have hn := (List.nodup_append.mp (List.nodup_append.mp (List.nodup_append.mp h1.rel.nodup).1).2.1).1
  exact flatMap_disjoint anaBlocks hn hij hi hj x ((h1.analyses a (List.mem_of_getElem? hi)).owned_blocks x hx)
    ((h1.analyses b (List.mem_of_getElem? hj)).owned_blocks x hx')

/-- **C88** (partial) Such a program loses no memory: what is allocated that was not before is exactly what the program holds, and
releasing everything, in any order and as often as one likes, leaves the heap as it was.  Missing: the case of C20, in which the library
itself loses a block. -/
theorem C88_memory_partial (hs : Build s) (hw : w.WF) {ops : List COp} (hc : Carefully s {} ops w) (ht : Tidily s {} ops w) :
    ∃ obs st w1, cRun s {} ops w = some ((obs, st), w1) ∧ (∀ b, b ∈ w1.live ↔ b ∈ w.live ∨ b ∈ CState.held st) ∧
      ∀ fin, ReleasesAll st fin → ∃ obs' st' w2, cRun s st fin w1 = some ((obs', st'), w2) ∧ Unchanged w w2 := by
  obtain ⟨obs, st, w1, e1, _, base, leak, h1, ht1⟩ := runs_c hs ops (Tracks.init hw) hc
  obtain ⟨rfl, rfl⟩ := ht1 ht
  refine ⟨obs, st, w1, e1, fun b => ?_, ?_⟩
  · rw [h1.rel.live b, List.append_nil, h1.held b]
  · intro fin hf
    obtain ⟨hc2, ht2⟩ := releases_careful (s := s) (st := st) (w := w1) fin hf.1
    obtain ⟨obs', st', w2, e2, _, base2, leak2, h2, ht3⟩ := runs_c hs fin h1 hc2
    obtain ⟨rfl, rfl⟩ := ht3 ht2
    refine ⟨obs', st', w2, e2, ?_, fun f => by rw [h2.rel.files]⟩
    intro b
    rw [h2.rel.live b, List.append_nil, releases_run fin hf.1 e2, release_all hf]
    simp

theorem session_history {P : World → Prop} (hs : Build s) (h : SessionWith s P k name W H p (post ++ [.results k ptr]) (obs ++ [.results RDEOK rw cw rh ch])) :
    ValidMethod? (resdetGetMethod name) ∧ ValidParams? s.cfg p ∧
    ∃ ev a, Returned s (resdetGetMethod name) W H p ev a rw cw rh ch ∧ ev.map (fun x => (x.1.op, x.2)) = callsOn k post obs ∧ ∀ x ∈ ev, P x.1.world := by
  obtain ⟨w0, pre, q, obs0, st0, w1, o, st1, w2, st2, w3, hw, hc, e0, rfl, rfl, e1, e2, ht⟩ := h
  obtain ⟨hc0, hc1⟩ := carefully_append pre hc
  obtain ⟨_, _, _, e0', _, base0, leak0, t0, _⟩ := runs_c hs pre (Tracks.init hw) hc0
  rw [e0] at e0'
  cases e0'
  refine ⟨getMethod_valid name, cArg_valid t0 q, ?_⟩
  have hc1 := hc1 e0
  have e1' := e1
  obtain ⟨_, _, _, m1⟩ := go_c hs t0 hc1.1
  rw [m1.exec] at e1
  cases e1
  obtain ⟨base1, leak1, t1, _⟩ := m1.tracks
  obtain ⟨hc2, hc3⟩ := carefully_append post (hc1.2 _ _ _ m1.exec)
  obtain ⟨o1, st3, w4, o2, e3, e4, eo, hlen⟩ := cRun_append post e2
  obtain ⟨base3, leak3, t3⟩ : ∃ base leak, Tracks s base leak st3 w4 := by
    obtain ⟨_, _, _, e, _, base, leak, t, _⟩ := runs_c hs post t1 hc2
    rw [e3] at e
    cases e
    exact ⟨base, leak, t⟩
  unfold cRun at e4
  simp only [M.bind_eq_some] at e4
  obtain ⟨⟨o3, st4⟩, w5, e5, ⟨os, st5⟩, w6, e6, e7⟩ := e4
  cases e6
  cases e7
  obtain ⟨rfl, ho⟩ := List.append_inj eo.symm (by
    have := congrArg List.length eo
    simp only [List.length_append, List.length_singleton] at this
    omega)
  rw [List.cons.injEq] at ho
  obtain ⟨rfl, _⟩ := ho
  -- the analysis is there at the end, and thus from the beginning
  simp only [cStep] at e5
  cases hk : st3.analyses[st0.analyses.length]? with
  | none => rw [hk] at e5; cases e5
  | some oa =>
    rw [hk] at e5
    simp only [M.bind_eq_some] at e5
    obtain ⟨⟨e, out, oa'⟩, w7, e8, e9⟩ := e5
    simp only [M.pure_apply, Option.some.injEq, Prod.mk.injEq, CObs.results.injEq] at e9
    obtain ⟨⟨⟨rfl, rfl, rfl, rfl, rfl⟩, _⟩, _⟩ := e9
    cases oa with
    | none =>
      have : analysisResults s none ptr w4 = some ((RDEPARAM, Out.nothing, none), w4) := by
        unfold analysisResults
        split_ifs <;> rfl
      rw [this] at e8
      simp [RDEOK, RDEPARAM] at e8
    | some a =>
      have hg := t3.analyses a (List.mem_of_getElem? hk)
      have hl := go_ana_live hk t3
      have hoa : oa' = some a := by
        obtain ⟨⟨_, _, x⟩, _, _, e10, _, q1⟩ := resultsProg_tri (F := True) (s := s) (a := a) (ptr := ptr) base3 w4 (pickAna hk t3)
        rw [← analysisResults_eq hs hg hl, e8] at e10
        cases e10
        cases q1
        rfl
      subst hoa
      -- where it came from
      have hlt1 : st0.analyses.length < st1.analyses.length := by
        simp only [cStep, M.bind_eq_some] at e1'
        obtain ⟨_, _, _, ⟨_, _⟩, _, _, e⟩ := e1'
        cases e
        simp
      have hk1 := List.getElem?_eq_getElem hlt1
      cases ha1 : st1.analyses[st0.analyses.length] with
      | none =>
        rw [ha1] at hk1
        have := dead_stays hs post t1 hc2 hk1 e3
        rw [hk] at this
        cases this
      | some a1 =>
        rw [ha1] at hk1
        rcases m1.follows _ a1 hk1 with ⟨_, h0, _⟩ | ⟨_, _, name', W', H', q', e', wd', hop, hcr⟩
        · have := (List.getElem?_eq_some_iff.mp h0).1
          omega
        · cases hop
          obtain ⟨ev, hr, hev, hP⟩ := history_c hs post t1 hc2 (throughout_init post ht) hk1 (Reach.create t0.rel.wf hcr) e3 hk
          rw [List.nil_append] at hr
          refine ⟨ev, a, ⟨hr, ⟨.results ptr, w4⟩, a, ⟨t3.rel.wf, fun b hb => hl b (hg.owned_blocks b hb), trivial⟩, ?_⟩, hev, hP⟩
          simp only [step, e8]

/-- **C88** What other objects are used in between makes no difference to an analysis: a successful call for its results returns what
the history of the calls on this analysis alone gives, so that everything proved about histories holds for it. -/
theorem C88_history (hs : Build s) (h : Session s k name W H p (post ++ [.results k ptr]) (obs ++ [.results RDEOK rw cw rh ch])) :
    ValidMethod? (resdetGetMethod name) ∧ ValidParams? s.cfg p ∧
    ∃ ev a, Returned s (resdetGetMethod name) W H p ev a rw cw rh ch ∧ ev.map (fun x => (x.1.op, x.2)) = callsOn k post obs :=  by
  obtain ⟨w0, pre, q, obs0, st0, w1, o, st1, w2, st2, w3, hw, hc, e0, hk, hp, e1, e2⟩ := h
  obtain ⟨hm, hv, ev, a, hr, hev, _⟩ := session_history hs ⟨w0, pre, q, obs0, st0, w1, o, st1, w2, st2, w3, hw, hc, e0, hk, hp, e1, e2, throughout_true _⟩
  exact ⟨hm, hv, ev, a, hr, hev⟩

/-- No image was refused for lack of memory. -/
def NeverShort (k : ℕ) (ops : List COp) (obs : List CObs) : Prop := ∀ x ∈ callsOn k ops obs, x.2 ≠ .analyzed RDENOMEM

theorem frames_analysed {ev : List (Call × Obs)} {ops : List COp} (hev : ev.map (fun x => (x.1.op, x.2)) = callsOn k ops obs)
    (him : ∀ x ∈ analysed ev, ∃ image, x.1.op = .analyze (some image)) :
    (analysed ev).map (fun x => x.1.op) = (framesOn k ops obs).map (fun f => Op.analyze (some f)) := by
  unfold framesOn
  rw [← hev]
  clear hev
  induction ev with
  | nil => rfl
  | cons x ev ih =>
    obtain ⟨⟨op, wd⟩, ob⟩ := x
    have ih := ih (fun x hx => him x (by
      unfold analysed at hx ⊢
      rw [List.filter_cons]
      split
      · exact List.mem_cons_of_mem _ hx
      · exact hx))
    by_cases hob : ob = .analyzed RDEOK
    · subst hob
      obtain ⟨image, e⟩ := him (⟨op, wd⟩, .analyzed RDEOK) (by unfold analysed; rw [List.filter_cons, if_pos (by simp)]; exact List.mem_cons_self)
      simp only at e
      subst e
      unfold analysed at ih ⊢
      rw [List.filter_cons, if_pos (by simp), List.map_cons, ih, List.map_cons, List.filterMap_cons_some (b := image) (by simp), List.map_cons]
    · unfold analysed at ih ⊢
      rw [List.filter_cons, if_neg (by simpa using hob), ih, List.map_cons, List.filterMap_cons_none]
      cases ob with
      | results => rcases op with (_ | im) | _ <;> rfl
      | analyzed e =>
        have he : e ≠ RDEOK := fun h => hob (by rw [h])
        rcases op with (_ | im) | _
        · rfl
        · simp only
          rw [if_neg he]
        · rfl

theorem alone_of (hs : Build s) (hm : ValidMethod? (resdetGetMethod name)) (hp : ValidParams? s.cfg p) {ev ev' : List (Call × Obs)} {a a' : Analysis}
    (hr : Returned s (resdetGetMethod name) W H p ev a rw cw rh ch) (hev : ev.map (fun x => (x.1.op, x.2)) = callsOn k post obs)
    (hr' : Returned s (resdetGetMethod name) W H p ev' a' rw' cw' rh' ch') (hev' : ev'.map (fun x => (x.1.op, x.2)) = callsOn k' post' obs')
    (hf : List.Forall₂ (fun f g => f.take (W * H) = g.take (W * H)) (framesOn k post obs) (framesOn k' post' obs'))
    (hno : NeverShort k post obs) (hno' : NeverShort k' post' obs') (hsafe : Unaffected s W H (analysed ev ++ analysed ev')) :
    (∀ l l', rw = some l → rw' = some l' → l = l') ∧ (∀ l l', rh = some l → rh' = some l' → l = l') := by
  have oom : ∀ {k : ℕ} {post : List COp} {obs : List CObs} {ev : List (Call × Obs)}, ev.map (fun x => (x.1.op, x.2)) = callsOn k post obs →
      NeverShort k post obs → NoOom ev := by
    intro k post obs ev he hn x hx
    exact hn (x.1.op, x.2) (he ▸ List.mem_map_of_mem hx)
  have hn := oom hev hno
  have hn' := oom hev' hno'
  have images : ∀ {ev : List (Call × Obs)} {a : Analysis} {rw rh : Option (List Res)} {cw ch : ℕ}, Returned s (resdetGetMethod name) W H p ev a rw cw rh ch → NoOom ev →
      ∀ x ∈ analysed ev, ∃ image, x.1.op = .analyze (some image) := by
    intro ev a rw rh cw ch hr hn x hx
    obtain ⟨fs, h1, _⟩ := (returned_got hs hm hp hr).inv.scores hn
    have : ∀ {xs : List (Call × Obs)} {fs : List (List Fl)}, List.Forall₂ (fun x f => Spectrum s a x.1 f) xs fs → ∀ x ∈ xs, ∃ image, x.1.op = .analyze (some image) := by
      intro xs fs h
      induction h with
      | nil => intro x hx; cases hx
      | cons h0 _ ih =>
        intro x hx
        rcases List.mem_cons.mp hx with rfl | hx
        · obtain ⟨image, _, _, ho, _⟩ := h0
          exact ⟨image, ho⟩
        · exact ih x hx
    exact this h1 x hx
  refine C84_repeatable hs hm hp hn hn' hr hr' (sameFrames hf (frames_analysed hev (images hr hn)) (frames_analysed hev' (images hr' hn'))) hsafe

/-- **C88** Two programs that give the same frames to an analysis of the same size, with the same method and parameters, get the same lists,
whatever else they do before and in between: an analysis gives what it would give alone. -/
theorem C88_alone (hs : Build s) (h : Session s k name W H p (post ++ [.results k ptr]) (obs ++ [.results RDEOK rw cw rh ch]))
    (h' : Session s k' name W H p (post' ++ [.results k' ptr']) (obs' ++ [.results RDEOK rw' cw' rh' ch']))
    (hf : List.Forall₂ (fun f g => f.take (W * H) = g.take (W * H)) (framesOn k post obs) (framesOn k' post' obs'))
    (hno : NeverShort k post obs) (hno' : NeverShort k' post' obs') (hsafe : s.cfg.backend = .fftw ∨ Smooth W ∧ Smooth H) :
    (∀ l l', rw = some l → rw' = some l' → l = l') ∧ (∀ l l', rh = some l → rh' = some l' → l = l') :=  by
  obtain ⟨hm, hp, ev, a, hr, hev⟩ := C88_history hs h
  obtain ⟨_, _, ev', a', hr', hev'⟩ := C88_history hs h'
  refine alone_of hs hm hp hr hev hr' hev' hf hno hno' ?_
  rcases hsafe with h | h
  · exact Or.inl h
  · exact Or.inr (Or.inl h)

/-- **C88** With memory enough for everything, an analysis gives what it would give alone for sizes of every kind and with either transform. -/
theorem C88_plenty (hs : Build s) (h : SessionWith s Plenty k name W H p (post ++ [.results k ptr]) (obs ++ [.results RDEOK rw cw rh ch]))
    (h' : SessionWith s Plenty k' name W H p (post' ++ [.results k' ptr']) (obs' ++ [.results RDEOK rw' cw' rh' ch']))
    (hf : List.Forall₂ (fun f g => f.take (W * H) = g.take (W * H)) (framesOn k post obs) (framesOn k' post' obs'))
    (hno : NeverShort k post obs) (hno' : NeverShort k' post' obs') :
    (∀ l l', rw = some l → rw' = some l' → l = l') ∧ (∀ l l', rh = some l → rh' = some l' → l = l') := by
  obtain ⟨hm, hp, ev, a, hr, hev, hP⟩ := session_history hs h
  obtain ⟨_, _, ev', a', hr', hev', hP'⟩ := session_history hs h'
  refine alone_of hs hm hp hr hev hr' hev' hf hno hno' (Or.inr (Or.inr fun x hx => ?_))
  rcases List.mem_append.mp hx with hx | hx
  · exact hP x (List.mem_of_mem_filter hx)
  · exact hP' x (List.mem_of_mem_filter hx)

/-- `Careful` for concrete programs. -/
def carefulB (s : Sys) (st : CState) : COp → Bool
  | .set _ (.range n) => decide (n ≤ s.cfg.sizeMax)
  | .analyze k (some image) =>
    match st.analyses[k]? with
    | some (some a) => decide (a.width * a.height ≤ image.length)
    | _ => true
  | .resdetect (some image) n w h _ _ _ => decide (image.length ≤ s.cfg.sizeMax ∧ n * (w * h) ≤ image.length)
  | .other w => decide ((∀ b ∈ w.live, b < w.next) ∧ (∀ b ∈ w.files, b < w.next) ∧ w.live.Nodup ∧ w.files.Nodup ∧ ∀ b ∈ CState.held st, b ∈ w.live)
  | _ => true

def carefullyB (s : Sys) : CState → List COp → World → Bool
  | _, [], _ => true
  | st, op :: ops, w => carefulB s st op &&
      match cStep s st op w with
      | none => true
      | some ((_, st'), w') => carefullyB s st' ops w'

theorem careful_of {st : CState} {op : COp} (h : carefulB s st op = true) : Careful s st op := by
  cases op with
  | set k c =>
    cases c with
    | range n => simpa [carefulB, Careful] using h
    | _ => trivial
  | analyze k image =>
    cases image with
    | none => trivial
    | some image =>
      intro a ha
      simpa [carefulB, ha] using h
  | resdetect image n w h' ptr name q =>
    cases image with
    | none => trivial
    | some image => simpa [carefulB, Careful] using h
  | other w =>
    simp only [carefulB, decide_eq_true_eq] at h
    exact ⟨⟨h.1, h.2.1, h.2.2.1, h.2.2.2.1⟩, h.2.2.2.2⟩
  | _ => trivial

theorem carefully_of (ops : List COp) : ∀ {st : CState} {w : World}, carefullyB s st ops w = true → Carefully s st ops w := by
  induction ops with
  | nil => intro st w _; trivial
  | cons op ops ih =>
    intro st w h
    simp only [carefullyB, Bool.and_eq_true] at h
    refine ⟨careful_of h.1, fun o st' w' e => ?_⟩
    rw [e] at h
    exact ih h.2

/-- Two analyses of different sizes at the same time, of which the first is destroyed while the other is in use, with parameters that are
changed after the creation, and with other allocations in between. -/
def cDemo : List COp := [.params, .set 0 (.range 1), .create none 4 2 none, .create (some "mag") 2 2 (some 0), .set 0 (.range 2), .analyze 0 (some Demo.image),
  .freeParams 0, .other ⟨List.range 40, [], 50, fun k => k != 3⟩, .analyze 1 (some Demo.image), .results 0 .all, .destroy 0, .read 0, .analyze 0 (some Demo.image), .results 1 .all]

/-- The codes that were observed, with the numbers of list elements. -/
def codes (obs : List CObs) : List (RDError × ℕ × ℕ) :=
  obs.map (fun o => match o with
    | .made e _ => (e, 0, 0)
    | .code e => (e, 0, 0)
    | .analyzed e => (e, 0, 0)
    | .results e _ cw _ ch => (e, cw, ch)
    | _ => (RDEOK, 0, 0))

example : Carefully Demo.sys {} cDemo Demo.w0 ∧ (cRun Demo.sys {} cDemo Demo.w0).map (fun r => codes r.1.1) =
    some [(0, 0, 0), (0, 0, 0), (0, 0, 0), (0, 0, 0), (0, 0, 0), (0, 0, 0), (0, 0, 0), (0, 0, 0), (0, 0, 0), (0, 1, 1), (0, 0, 0), (0, 0, 0),
      (RDEPARAM, 0, 0), (RDENOMEM, 0, 0)] :=
  ⟨carefully_of _ (by decide +kernel), by decide +kernel⟩

theorem session_with_of {P : World → Prop} {pre post : List COp} {q : Option ℕ} (hw : w.WF) (hc : Carefully s {} (pre ++ .create name W H q :: post) w)
    (hrun : (cRun s {} (pre ++ .create name W H q :: post) w).map (fun r => r.1.1.drop (pre.length + 1)) = some obs)
    (ht : Throughout s P {} (pre ++ .create name W H q :: post) w)
    (hpre : (cRun s {} pre w).map (fun r => (r.1.2.analyses.length, (cArg r.1.2 q).map Prod.snd)) = some (k, p)) :
    SessionWith s P k name W H p post obs := by
  rw [Option.map_eq_some_iff] at hrun hpre
  obtain ⟨⟨⟨os, st2⟩, w3⟩, e1, e2⟩ := hrun
  obtain ⟨⟨⟨os0, st0⟩, w1⟩, e3, e4⟩ := hpre
  obtain ⟨o1, st1, w2, o2, h1, h2, rfl, h4⟩ := cRun_append pre e1
  rw [e3] at h1
  cases h1
  unfold cRun at h2
  simp only [M.bind_eq_some] at h2
  obtain ⟨⟨o, st1⟩, w2, h5, ⟨os, st3⟩, w4, h6, h7⟩ := h2
  cases h7
  have h8 : (os0 ++ o :: os).drop (pre.length + 1) = os := by
    rw [← h4, List.drop_append, List.drop_of_length_le (by omega)]
    simp
  dsimp only at e2 e4
  rw [h8] at e2
  subst e2
  cases e4
  exact ⟨w, pre, q, os0, st0, _, o, st1, _, _, _, hw, hc, e3, rfl, rfl, h5, h6, (throughout_drop pre ht e3).2 _ _ _ h5⟩

/-- A run as a session. -/
theorem session_of {pre post : List COp} {q : Option ℕ} (hw : w.WF) (hc : Carefully s {} (pre ++ .create name W H q :: post) w)
    (hrun : (cRun s {} (pre ++ .create name W H q :: post) w).map (fun r => r.1.1.drop (pre.length + 1)) = some obs)
    (hpre : (cRun s {} pre w).map (fun r => (r.1.2.analyses.length, (cArg r.1.2 q).map Prod.snd)) = some (k, p)) :
    Session s k name W H p post obs := by
  obtain ⟨w0, pre, q, obs0, st0, w1, o, st1, w2, st2, w3, hw, hc, e0, hk, hp, e1, e2, _⟩ := session_with_of hw hc hrun (throughout_true _) hpre
  exact ⟨w0, pre, q, obs0, st0, w1, o, st1, w2, st2, w3, hw, hc, e0, hk, hp, e1, e2⟩

/-- An analysis in a program that uses two, whose frames are interleaved. -/
def cTwo : List COp := [.create (some "mag") 2 2 none, .analyze 0 (some Demo.image), .set 0 (.range 3), .analyze 1 (some (Demo.image.drop 3)),
  .resdetect (some Demo.image) 1 2 4 .all none none]

/-- The same analysis in a program that uses this one only. -/
def cOne : List COp := [.analyze 0 (some (Demo.image ++ [.nan false]))]

/-- How they go on after the creation. -/
def seen (post : List COp) : List CObs :=
  ((cRun Demo.sys {} ([.params, .set 0 (.range 1)] ++ .create (some "orig") 4 2 (some 0) :: (post ++ [.results 0 .all])) Demo.w0).map (fun r => r.1.1.drop (2 + 1))).getD []

/-- The lists and counts seen last. -/
def lastLists (obs : List CObs) : Option (List Res) × ℕ × Option (List Res) × ℕ :=
  match obs.getLast? with
  | some (.results _ rw cw rh ch) => (rw, cw, rh, ch)
  | _ => (none, 0, none, 0)

theorem demo_session {post : List COp} (hc : carefullyB Demo.sys {} ([.params, .set 0 (.range 1)] ++ .create (some "orig") 4 2 (some 0) :: (post ++ [.results 0 .all])) Demo.w0 = true)
    (hr : (cRun Demo.sys {} ([.params, .set 0 (.range 1)] ++ .create (some "orig") 4 2 (some 0) :: (post ++ [.results 0 .all])) Demo.w0).isSome = true)
    (he : seen post = (seen post).dropLast ++ [.results RDEOK (lastLists (seen post)).1 (lastLists (seen post)).2.1 (lastLists (seen post)).2.2.1 (lastLists (seen post)).2.2.2]) :
    Session Demo.sys 0 (some "orig") 4 2 (some ⟨1, .fin true (-1), 0⟩) (post ++ [.results 0 .all])
      ((seen post).dropLast ++ [.results RDEOK (lastLists (seen post)).1 (lastLists (seen post)).2.1 (lastLists (seen post)).2.2.1 (lastLists (seen post)).2.2.2]) := by
  rw [← he]
  refine session_of (pre := [.params, .set 0 (.range 1)]) (q := some 0) Demo.w0_wf (carefully_of _ hc) ?_ (by decide +kernel)
  obtain ⟨r, h⟩ := Option.isSome_iff_exists.mp hr
  unfold seen
  rw [h]
  rfl

example : (∀ l l', (lastLists (seen cTwo)).1 = some l → (lastLists (seen cOne)).1 = some l' → l = l') ∧
    (lastLists (seen cTwo)).1 = some [⟨4, .fin true (-1)⟩] ∧ (lastLists (seen cOne)).1.isSome :=
  ⟨(C88_alone (post := cTwo) (post' := cOne) Demo.sys_build (demo_session (by decide +kernel) (by decide +kernel) (by decide +kernel))
    (demo_session (by decide +kernel) (by decide +kernel) (by decide +kernel)) (by
      rw [show framesOn 0 cTwo (seen cTwo).dropLast = [Demo.image] by decide +kernel,
        show framesOn 0 cOne (seen cOne).dropLast = [Demo.image ++ [.nan false]] by decide +kernel]
      exact .cons (by decide +kernel) .nil)
    (by unfold NeverShort; decide +kernel) (by unfold NeverShort; decide +kernel) (Or.inl rfl)).1, by decide +kernel, by decide +kernel⟩

/-- A row of seven samples. -/
def seven : List Fl := [.fin false 0, .fin false 1, .fin false 2, .fin false 3, .fin false 4, .fin false 5, .fin false 6]

/-- With the bundled transform and a row whose length is a prime above five, an analysis between the frames of another and alone. -/
def kTwo : List COp := [.create (some "mag") 2 2 none, .analyze 0 (some seven), .analyze 1 (some seven)]

/-- How it goes on after the creation. -/
def seenK (post : List COp) : List CObs :=
  ((cRun Demo.sysK {} ([.params, .set 0 (.range 1)] ++ .create (some "sign") 7 1 (some 0) :: (post ++ [.results 0 .all])) Demo.w0).map (fun r => r.1.1.drop (2 + 1))).getD []

theorem demo_plenty {post : List COp} (hc : carefullyB Demo.sysK {} ([.params, .set 0 (.range 1)] ++ .create (some "sign") 7 1 (some 0) :: (post ++ [.results 0 .all])) Demo.w0 = true)
    (hr : (cRun Demo.sysK {} ([.params, .set 0 (.range 1)] ++ .create (some "sign") 7 1 (some 0) :: (post ++ [.results 0 .all])) Demo.w0).isSome = true)
    (he : seenK post = (seenK post).dropLast ++ [.results RDEOK (lastLists (seenK post)).1 (lastLists (seenK post)).2.1 (lastLists (seenK post)).2.2.1 (lastLists (seenK post)).2.2.2])
    (ho : ∀ op ∈ post, ∀ w, op ≠ .other w) :
    SessionWith Demo.sysK Plenty 0 (some "sign") 7 1 (some ⟨1, .fin true (-1), 0⟩) (post ++ [.results 0 .all])
      ((seenK post).dropLast ++ [.results RDEOK (lastLists (seenK post)).1 (lastLists (seenK post)).2.1 (lastLists (seenK post)).2.2.1 (lastLists (seenK post)).2.2.2]) := by
  rw [← he]
  refine session_with_of (pre := [.params, .set 0 (.range 1)]) (q := some 0) Demo.w0_wf (carefully_of _ hc) ?_ (throughout_plenty _ (fun _ => rfl) ?_) (by decide +kernel)
  · obtain ⟨r, h⟩ := Option.isSome_iff_exists.mp hr
    unfold seenK
    rw [h]
    rfl
  · intro op hop w e
    subst e
    simp only [List.cons_append, List.nil_append, List.mem_cons, List.mem_append, reduceCtorEq, List.not_mem_nil, or_false, false_or] at hop
    exact absurd rfl (ho _ hop w)

example : ¬ Smooth 7 ∧ (∀ l l', (lastLists (seenK kTwo)).1 = some l → (lastLists (seenK [.analyze 0 (some seven)])).1 = some l' → l = l') ∧
    (lastLists (seenK kTwo)).1.isSome ∧ (lastLists (seenK [.analyze 0 (some seven)])).1.isSome :=
  ⟨fun h => absurd (h 7 Nat.prime_seven dvd_rfl) (by decide), (C88_plenty (post := kTwo) (post' := [.analyze 0 (some seven)]) Demo.sysK_build
    (demo_plenty (by decide +kernel) (by decide +kernel) (by decide +kernel) (by simp [kTwo]))
    (demo_plenty (by decide +kernel) (by decide +kernel) (by decide +kernel) (by simp)) (by
      rw [show framesOn 0 kTwo (seenK kTwo).dropLast = [seven] by decide +kernel,
        show framesOn 0 [.analyze 0 (some seven)] (seenK [.analyze 0 (some seven)]).dropLast = [seven] by decide +kernel]
      exact .cons rfl .nil)
    (by unfold NeverShort; decide +kernel) (by unfold NeverShort; decide +kernel)).1, by decide +kernel, by decide +kernel⟩

/-- **C88** The case that is missing above: with the bundled transform, after a creation that failed for lack of memory and nothing else,
a block is left that the program knows nothing about. -/
theorem C88_memory_fails : ∃ (s : Sys) (w : World) (ops : List COp), Build s ∧ w.WF ∧ Carefully s {} ops w ∧
    ∃ obs st w1, cRun s {} ops w = some ((obs, st), w1) ∧ CState.held st = [] ∧ ∃ b, b ∈ w1.live ∧ b ∉ w.live := by
  have h : (cRun Demo.sysK {} [.create none 2 1 none] { Demo.w0 with sched := fun k => k != 8 }).map
      (fun r => (CState.held r.1.2, decide (7 ∈ r.2.live))) = some ([], true) := by decide +kernel
  rw [Option.map_eq_some_iff] at h
  obtain ⟨⟨⟨obs, st⟩, w1⟩, h1, h2⟩ := h
  simp only [Prod.mk.injEq, decide_eq_true_eq] at h2
  exact ⟨Demo.sysK, { Demo.w0 with sched := fun k => k != 8 }, [.create none 2 1 none], Demo.sysK_build, ⟨by simp [Demo.w0], by simp [Demo.w0], by simp [Demo.w0], by simp [Demo.w0]⟩, ⟨trivial, fun _ _ _ _ => trivial⟩,
    obs, st, w1, h1, h2.1, 7, h2.2, by simp [Demo.w0]⟩

/-- With FFTW no step loses memory. -/
theorem tidily_fftw (hb : s.cfg.backend = .fftw) (ops : List COp) : ∀ {st : CState} {w : World}, (∀ op ∈ ops, ∀ w, op ≠ .other w) → Tidily s st ops w := by
  induction ops with
  | nil => intro st w _; trivial
  | cons op ops ih =>
    intro st w h
    refine ⟨?_, fun _ _ _ _ => ih fun x hx => h x (by simp [hx])⟩
    cases op with
    | create => exact Or.inl hb
    | resdetect => exact Or.inl hb
    | other w => exact absurd rfl (h (.other w) (by simp) w)
    | _ => trivial

/-- The program with two analyses, in which an allocation fails. -/
example : Carefully Demo.sys {} (.params :: cTwo) { Demo.w0 with sched := fun k => k != 6 } ∧ Tidily Demo.sys {} (.params :: cTwo) { Demo.w0 with sched := fun k => k != 6 } ∧
    (cRun Demo.sys {} (.params :: cTwo) { Demo.w0 with sched := fun k => k != 6 }).map (fun r => codes r.1.1) =
      some [(0, 0, 0), (0, 0, 0), (0, 0, 0), (0, 0, 0), (0, 0, 0), (RDENOMEM, 0, 0)] :=
  ⟨carefully_of _ (by decide +kernel), tidily_fftw rfl _ (by simp [cTwo]), by decide +kernel⟩

end Verif.Props
