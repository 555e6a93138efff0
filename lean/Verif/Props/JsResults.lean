import Verif.Proofs.JsResults
import Verif.Props.PyResults

/-! # What programs that use the JavaScript binding get (C91) -/

namespace Verif.Props

open Spec

variable {s : Sys} {v : JsConv} {w w1 w2 w' w'' : World} {m : Option Method} {p : Option Params} {W H : ℕ} {frames : List (List Fl)} {ops : List JsOp}
  {obs obs' : List (Raises PyVal)} {st st' : List (Option Analysis)}

theorem JsHolds.init (hw : w.WF) (hpl : Plenty w) : JsHolds s v w [] [] w := ⟨Own.init hw (plenty_false hpl), .nil⟩

theorem jsHolds_some {kn : List (Option JsUsed)} (hk : List.Forall₂ (JAna s v) kn st) : st.map Option.isSome = kn.map Option.isSome := by
  induction hk with
  | nil => rfl
  | @cons x y _ _ hxy _ ih =>
    have e : y.isSome = x.isSome := by
      cases x with
      | none => cases hxy; rfl
      | some u => obtain ⟨a, _, _, rfl, _⟩ := hxy; rfl
    simp only [List.map_cons, e, ih]

/-- **C91** In a program that uses the JavaScript binding as it should while there is memory, no statement is undefined, and every one returns or raises what
is due: an analysis accepts the arrays whose samples are finite, and gives the results for those that it accepted, whatever else the program does with
other analyses and whenever the finalisers of those run.  There is as much memory for whatever comes next. -/
theorem C91_program (hs : Build s) (hv : ∀ x, v.size x ≤ s.cfg.sizeMax) (hw : w.WF) (hpl : Plenty w) (hp : jsProperly s v [] ops) :
    ∃ obs st w', jsRun s v [] ops w = some ((obs, st), w') ∧ jsFulfils s v [] ops obs ∧ Plenty w' := by
  obtain ⟨obs, st, w', h1, h2, h3⟩ := js_run hs hv ops (JsHolds.init hw hpl) hp
  exact ⟨obs, st, w', h1, h2, plenty_own h3.own⟩

/-- **C91** What a program leaves in memory are the blocks of the analyses that were not collected; once all are, memory is as before. -/
theorem C91_memory (hs : Build s) (hv : ∀ x, v.size x ≤ s.cfg.sizeMax) (hw : w.WF) (hpl : Plenty w) (hp : jsProperly s v [] ops)
    (h : jsRun s v [] ops w = some ((obs, st), w')) :
    st.map Option.isSome = (jsLearned s v ops).map Option.isSome ∧
    (∀ b, b ∈ w'.live ↔ b ∈ w.live ∨ ∃ a, some a ∈ st ∧ b ∈ a.blocks) ∧ (∀ f, f ∈ w'.files ↔ f ∈ w.files) ∧
    ((∀ u ∈ jsLearned s v ops, u = none) → Unchanged w w') := by
  obtain ⟨_, _, _, h1, _, h3⟩ := js_run hs hv ops (JsHolds.init hw hpl) hp
  rw [h] at h1
  cases h1
  have hlive : ∀ b, b ∈ w'.live ↔ b ∈ w.live ∨ ∃ a, some a ∈ st ∧ b ∈ a.blocks := by
    intro b
    rw [h3.own.live b, List.mem_flatMap]
    refine or_congr Iff.rfl ⟨?_, ?_⟩
    · rintro ⟨_ | a, h4, h5⟩
      · cases h5
      · exact ⟨a, h4, h5⟩
    · rintro ⟨a, h4, h5⟩
      exact ⟨some a, h4, h5⟩
  have hfiles : ∀ f, f ∈ w'.files ↔ f ∈ w.files := fun f => by rw [h3.own.files f]; simp
  have hsome : st.map Option.isSome = (jsLearned s v ops).map Option.isSome := jsHolds_some h3.known
  refine ⟨hsome, hlive, hfiles, fun hn => ⟨fun b => ?_, hfiles⟩⟩
  rw [hlive b]
  refine ⟨?_, Or.inl⟩
  rintro (hb | ⟨a, ha, _⟩)
  · exact hb
  · have h5 : true ∈ st.map Option.isSome := List.mem_map.mpr ⟨some a, ha, rfl⟩
    rw [hsome] at h5
    obtain ⟨x, hx, hx'⟩ := List.mem_map.mp h5
    rw [hn x hx] at hx'
    cases hx'

/-- Two analyses, one of which is given an array with a sample that is not finite; the other one is collected before the end. -/
def jsWeave : List JsOp := [.analysis (.fin false 4) (.fin false 2) none Demo.obj, .analysis (.fin false 2) (.fin false 1) (some "none") {}, .results 0,
  .analyze 1 [.fin false 1, .inf false], .analyze 0 Demo.image, .collected 1, .analysis (.fin false 0) (.fin false 1) none {}, .results 0,
  .resDetect Demo.image (.fin false 1) (.fin false 4) (.fin false 2) none Demo.obj, .resDetect [] (.fin false 0) (.fin false 4) (.fin false 2) none {}, .collected 0]

def jsWeft : List (Raises PyVal) := [.ok .unit, .ok .unit, .raised (some RDENOIMG), .raised (some RDEINVAL), .ok .unit, .ok .unit, .raised (some RDEINVAL),
  .ok (.lists [⟨2, .fin false (1/2)⟩, ⟨1, .fin false 0⟩, ⟨4, .fin true (-1)⟩] [⟨2, .fin true (-1)⟩]),
  .ok (.lists [⟨2, .fin false (1/2)⟩, ⟨1, .fin false 0⟩, ⟨4, .fin true (-1)⟩] [⟨2, .fin true (-1)⟩]), .raised (some RDENOIMG), .ok .unit]

theorem Demo.obj_sane : SaneJs Demo.conv Demo.obj := by
  constructor
  · intro n h; cases h; decide +kernel
  · intro t h; cases h; exact ⟨false, 0, by decide +kernel, by decide, by decide⟩
  · intro n h; cases h

theorem Demo.none_sane : SaneJs Demo.conv {} := by constructor <;> (intro _ h; cases h)

theorem jsWeave_proper : jsProperly Demo.sys Demo.conv [] jsWeave := by
  refine ⟨⟨by decide +kernel, Or.inr Demo.obj_sane⟩, ⟨by decide +kernel, Or.inr Demo.none_sane⟩, ⟨⟨4, 2, none, Demo.obj, []⟩, by decide +kernel, by decide +kernel⟩,
    ⟨⟨2, 1, some "none", {}, []⟩, by decide +kernel, by decide +kernel, by decide +kernel⟩, ⟨⟨4, 2, none, Demo.obj, []⟩, by decide +kernel, by decide +kernel, by decide +kernel⟩,
    ⟨⟨2, 1, some "none", {}, []⟩, by decide +kernel⟩, ⟨by decide +kernel, Or.inr Demo.none_sane⟩,
    ⟨⟨4, 2, none, Demo.obj, [Demo.image]⟩, by decide +kernel, by decide +kernel⟩, ⟨by decide +kernel, Or.inr Demo.obj_sane, by decide +kernel, by decide +kernel⟩,
    ⟨by decide +kernel, Or.inr Demo.none_sane, by decide +kernel, by decide +kernel⟩, ⟨⟨4, 2, none, Demo.obj, [Demo.image]⟩, by decide +kernel⟩, trivial⟩

example : (jsRun Demo.sys Demo.conv [] jsWeave Demo.w0).map (fun r => (r.1.1, r.2.live)) = some (jsWeft, []) ∧ jsLearned Demo.sys Demo.conv jsWeave = [none, none] ∧
    (∀ x, Demo.conv.size x ≤ Demo.sys.cfg.sizeMax) ∧ Plenty Demo.w0 :=
  ⟨by decide +kernel, by decide +kernel, Demo.conv_size, fun _ => rfl⟩

/-- **C91** Running a program again gives the same, wherever the memory it gets is. -/
theorem C91_same (hs : Build s) (hv : ∀ x, v.size x ≤ s.cfg.sizeMax) (hw1 : w1.WF) (hpl1 : Plenty w1) (hw2 : w2.WF) (hpl2 : Plenty w2)
    (hp : jsProperly s v [] ops) (h1 : jsRun s v [] ops w1 = some ((obs, st), w')) (h2 : jsRun s v [] ops w2 = some ((obs', st'), w'')) : obs = obs' := by
  obtain ⟨_, _, _, e1, h3, _⟩ := C91_program hs hv hw1 hpl1 hp
  obtain ⟨_, _, _, e2, h4, _⟩ := C91_program hs hv hw2 hpl2 hp
  rw [h1] at e1
  rw [h2] at e2
  cases e1
  cases e2
  exact jsFulfils_unique hs hv (fun u hu => by cases hu) hp h3 h4

/-- **C91** Nothing shows when finalisers run: without them, the statements of the program return the same. -/
theorem C91_finalisers (hs : Build s) (hv : ∀ x, v.size x ≤ s.cfg.sizeMax) (hw1 : w1.WF) (hpl1 : Plenty w1) (hw2 : w2.WF) (hpl2 : Plenty w2)
    (hp : jsProperly s v [] ops) (h1 : jsRun s v [] ops w1 = some ((obs, st), w')) :
    ∃ st' w'', jsRun s v [] (ops.filter JsOp.Stated) w2 = some ((jsSeen ops obs, st'), w'') := by
  obtain ⟨_, _, _, e1, h3, _⟩ := C91_program hs hv hw1 hpl1 hp
  rw [h1] at e1
  cases e1
  have hp' : jsProperly s v [] (ops.filter JsOp.Stated) := Fewer.refl.properly hp
  obtain ⟨obs', st', w'', e2, h4, _⟩ := C91_program hs hv hw2 hpl2 hp'
  rw [jsFulfils_unique hs hv (fun u hu => by cases hu) hp' (Fewer.refl.fulfils hp h3) h4]
  exact ⟨st', w'', e2⟩

/-- Here the finalisers come in the middle and at the end. -/
example : jsWeave.filter JsOp.Stated ≠ [] ∧ (jsRun Demo.sys Demo.conv [] (jsWeave.filter JsOp.Stated) Demo.w0).map (fun r => (r.1.1, r.1.2.map Option.isSome)) =
    some (jsSeen jsWeave jsWeft, [true, true]) := ⟨by decide, by decide +kernel⟩

/-- **C91** The results that programs get, against exact arithmetic: like those of the library (C89). -/
theorem C91_exact (hs : Build s) (hv : ∀ x, v.size x ≤ s.cfg.sizeMax) (hw : w.WF) (hpl : Plenty w) {k : ℕ} (hp : jsProperly s v [] (ops ++ [.results k]))
    {u : JsUsed} (hu : (jsLearned s v ops)[k]? = some (some u)) (hpar : JsMeans s.cfg v u.dict p) (hne : u.frames ≠ [])
    {U B e A : ℝ} (h : Suits s (methodNamed u.method) p u.width u.height U B e A) {pics : List (ℕ → ℕ → ℝ)}
    (hpics : List.Forall₂ (Depicts B e u.width u.height) u.frames pics) (hexact : Exact s.cfg u.frames.length) (hlen : u.frames.length ≤ s.cfg.sizeMax)
    (hrun : jsRun s v [] (ops ++ [.results k]) w = some ((obs, st), w')) :
    ∃ l1 l2, obs.getLast? = some (.ok (.lists l1 l2)) ∧
      WidthsBy s (methodNamed u.method) p u.width u.height (totalError U B e u.width u.height) A pics l1 ∧
      HeightsBy s (methodNamed u.method) p u.width u.height (totalError U B e u.width u.height) A pics l2 := by
  obtain ⟨_, _, _, e1, h3, _⟩ := C91_program hs hv hw hpl hp
  rw [hrun] at e1
  cases e1
  have key : ∀ (ops : List JsOp) (kn : List (Option JsUsed)) (obs : List (Raises PyVal)), jsFulfils s v kn (ops ++ [.results k]) obs →
      ∃ o, obs.getLast? = some o ∧ jsExpects s v (ops.foldl (jsLearn s v) kn) (.results k) o := by
    intro ops
    induction ops with
    | nil =>
      rintro kn (_ | ⟨o, _ | _⟩) hf
      · exact hf.elim
      · exact ⟨o, rfl, hf.1⟩
      · exact hf.2.elim
    | cons op ops ih =>
      rintro kn (_ | ⟨o, obs⟩) hf
      · exact hf.elim
      · obtain ⟨o', h1, h2⟩ := ih _ _ hf.2
        refine ⟨o', ?_, h2⟩
        rw [List.getLast?_cons, h1]
        rfl
  obtain ⟨o, h5, h6⟩ := key ops [] _ h3
  obtain ⟨l1, l2, rfl, h7⟩ := (C90_exact (o := o) h hne hpics hexact hlen).1 (h6 u p hu hpar)
  exact ⟨l1, l2, h5, h7⟩

/-- A row of 4 samples, analysed by the zerox method. -/
def jsRow : List JsOp := [.analysis (.fin false 4) (.fin false 1) (some "zerox") { range := some (.fin false 1) }, .analyze 0 ramp4]

def jsRowUsed : JsUsed := ⟨4, 1, some "zerox", { range := some (.fin false 1) }, [ramp4]⟩

theorem jsRow_size : Demo.conv.size (.fin false 4) = 4 ∧ Demo.conv.size (.fin false 1) = 1 := by decide +kernel

theorem jsRow_first : jsLearn Demo.sysN Demo.conv [] (.analysis (.fin false 4) (.fin false 1) (some "zerox") { range := some (.fin false 1) }) =
    [some { jsRowUsed with frames := [] }] := by
  simp only [jsLearn, jsRow_size.1, jsRow_size.2]
  rw [if_pos ⟨trivial, Demo.row_size⟩]
  rfl

theorem jsRow_known : jsLearned Demo.sysN Demo.conv jsRow = [some jsRowUsed] := by
  unfold jsLearned jsRow
  rw [List.foldl_cons, jsRow_first, List.foldl_cons, List.foldl_nil]
  decide +kernel

theorem jsRow_proper : jsProperly Demo.sysN Demo.conv [] (jsRow ++ [.results 0]) := by
  have h0 := jsRow_known
  unfold jsLearned jsRow at h0
  simp only [List.foldl_cons, List.foldl_nil] at h0
  refine ⟨⟨?_, Or.inr ⟨?_, ?_, ?_⟩⟩, ?_, ?_, trivial⟩
  · rw [jsRow_size.1, jsRow_size.2]
    show 0 ≤ (4 : ℤ) ∧ 0 ≤ (1 : ℤ) ∧ (4 : ℤ) ≤ (lp64 .kiss).sizeMax ∧ (1 : ℤ) ≤ (lp64 .kiss).sizeMax ∧ (4 : ℤ) * (lp64 .kiss).szInter ≤ (lp64 .kiss).sizeMax ∧
      (1 : ℤ) * (lp64 .kiss).szInter ≤ (lp64 .kiss).sizeMax
    decide +kernel
  · intro n h; cases h; rw [jsRow_size.2]
  · intro n h; cases h
  · intro n h; cases h
  · rw [jsRow_first]
    exact ⟨_, rfl, show 4 * 1 ≤ ramp4.length by decide, show ramp4.length * 4 ≤ (lp64 .kiss).sizeMax by decide +kernel⟩
  · rw [h0]
    exact ⟨_, rfl, show 1 ≤ (lp64 .kiss).sizeMax by decide +kernel⟩

/-- A program finds width 2 in it. -/
example : ∃ obs st w' l1 l2, jsRun Demo.sysN Demo.conv [] (jsRow ++ [.results 0]) Demo.w0 = some ((obs, st), w') ∧ obs.getLast? = some (.ok (.lists l1 l2)) ∧
    ⟨2, .fin false 1⟩ ∈ l1 := by
  have hs := (Demo.any_suits Demo.zerox_mem (e := 2 ^ (-24 : ℤ)) (by positivity) (by norm_num))
  obtain ⟨obs, st, w', h1, _⟩ := C91_program hs.build Demo.conv_size Demo.w0_wf (fun _ => rfl) jsRow_proper
  obtain ⟨l1, l2, h2, h3, _⟩ := C91_exact (p := some Demo.rowParams) (u := jsRowUsed) hs.build Demo.conv_size Demo.w0_wf (fun _ => rfl) jsRow_proper
    (by rw [jsRow_known]; rfl) (Or.inr ⟨by decide, Demo.rowParams, rfl, by decide +kernel, by decide +kernel, rfl⟩) (List.cons_ne_nil _ _) hs (.cons Demo.ramp4_depicts .nil)
    Demo.row_exact (show 1 ≤ (lp64 .kiss).sizeMax by decide +kernel) h1
  exact ⟨obs, st, w', l1, l2, h1, h2, Demo.zerox_finds (by positivity) (by norm_num) h3⟩

/-- **C91** The two bindings give the same for the same samples and parameters. -/
theorem C91_python (hs : Build s) (hv : ∀ x, v.size x ≤ s.cfg.sizeMax) (hm : ValidMethod? m) {d : JsObject} {d' : PyDict} (hd : d.unknown = false) (hsane : SaneJs v d)
    (hp : JsMeans s.cfg v d p) (hp' : Stands s.cfg d' p) {n : ℕ} {nf wf hf : Fl} (en : v.size nf = n) (eW : v.size wf = W) (eH : v.size hf = H) {image : List Fl}
    (himg : image.length * 4 ≤ s.cfg.sizeMax) (hlen : n * (W * H) ≤ image.length) (hn : n ≠ 0) (hsize : moderate s W H) (hw1 : w1.WF) (hpl1 : Plenty w1)
    (hw2 : w2.WF) (hpl2 : Plenty w2) :
    ∃ r w' w'', jsResDetect s v image nf wf hf m d w1 = some (r, w') ∧ pyResdetect s (some image) n W H m d' w2 = some (r, w'') ∧
      Unchanged w1 w' ∧ Unchanged w2 w'' := by
  obtain ⟨p', h1, hpv⟩ := jsMeans_exists hs hv hd hsane
  cases jsMeans_unique hp h1
  obtain ⟨r, w', _, _, e1, ow, rfl, rfl, _, h2⟩ := (jsResDetect_act (L := []) (S := []) hs hm hd hsane hp hpv en eW eH himg hlen (moderate_huge hsize)).run
    (Own.init hw1 (plenty_false hpl1))
  have hn' : n ≤ s.cfg.sizeMax := by rw [← en]; exact hv _
  obtain ⟨r', w'', e2, h3, h4⟩ := pyResdetect_outcome hs hm hp'.1 hn hn' (W := W) (H := H) (by rw [← eW]; exact hv _) (by rw [← eH]; exact hv _)
    (by omega) hlen hw2 hpl2 (moderate_huge hsize)
  rw [← stands_eff hs hp'] at h3
  cases (h2 hn).unique hs hm hpv h3
  exact ⟨r, w', w'', e1, e2, ow.same, h4⟩

example : JsMeans Demo.sys.cfg Demo.conv Demo.obj (some Demo.params) ∧ Stands Demo.sys.cfg Demo.dict (some Demo.params) ∧ moderate Demo.sys 4 2 ∧
    Demo.conv.size (.fin false 1) * (4 * 2) ≤ Demo.image.length ∧ Demo.image.length * 4 ≤ Demo.sys.cfg.sizeMax :=
  ⟨Or.inr ⟨by decide, Demo.params, rfl, by decide +kernel, by decide +kernel, rfl⟩,
    ⟨rfl, ⟨by rintro _ h; cases h; decide +kernel, by rintro _ h; cases h; exact ⟨false, 0, by decide +kernel, by decide, by decide⟩, by rintro _ h; cases h⟩,
      Or.inr ⟨by decide, Demo.params, rfl, by decide +kernel, by decide +kernel, rfl⟩⟩, by decide +kernel, by decide +kernel, by decide +kernel⟩

end Verif.Props
