import Verif.Proofs.Limit
import Verif.Props.Wrappers
import Verif.Props.Library

/-! # The size limit and the index types do not change answers (C86) -/

namespace Verif.Props

open Spec

variable {s : Sys} {P I S : ℕ} {w w1 : World} {m : Option Method} {p : Option Params}

/-- **C86** `resdet_create_analysis` does exactly the same, for images within both limits. -/
theorem C86_create (hs : s.cfg.WF) (ht : Build (relimit s P I S)) (hle : P ≤ s.cfg.pixelMax) {W H : ℕ} (hP : W * H ≤ P) :
    createAnalysis s m W H p = createAnalysis (relimit s P I S) m W H p :=
  Twin.create_eq ⟨hs, ht, hle⟩ m hP p

/-- **C86** The same histories are possible: whatever calls are made on an analysis object, every one of them returns the same, and
the object is in the same state afterwards. -/
theorem C86_history (hs : s.cfg.WF) (ht : Build (relimit s P I S)) (hle : P ≤ s.cfg.pixelMax) (hm : ValidMethod? m)
    (hp : ValidParams? s.cfg p) {W H : ℕ} (hP : W * H ≤ P) {ev : List (Call × Obs)} {a : Analysis} :
    (Reach s m W H p ev a ↔ Reach (relimit s P I S) m W H p ev a) ∧
      (Reach s m W H p ev a → ∀ c, Legal a c → step s a c = step (relimit s P I S) a c) := by
  have h : Twin s P I S := ⟨hs, ht, hle⟩
  refine ⟨h.reach hm hp hP, fun hr c hc => h.step_eq ?_ hc⟩
  exact (reach_inv ht hm (Twin.valid.mpr hp) ((h.reach hm hp hP).mp hr)).good

/-- **C86** The same results can be returned. -/
theorem C86_returned (hs : s.cfg.WF) (ht : Build (relimit s P I S)) (hle : P ≤ s.cfg.pixelMax) (hm : ValidMethod? m)
    (hp : ValidParams? s.cfg p) {W H : ℕ} (hP : W * H ≤ P) {ev : List (Call × Obs)} {a : Analysis} {rw rh : Option (List Res)} {cw ch : ℕ} :
    Returned s m W H p ev a rw cw rh ch ↔ Returned (relimit s P I S) m W H p ev a rw cw rh ch := by
  unfold Returned
  constructor
  · rintro ⟨hr, c, a', hc, hstep⟩
    obtain ⟨h1, h2⟩ := C86_history hs ht hle hm hp hP (ev := ev) (a := a)
    exact ⟨h1.mp hr, c, a', hc, by rw [← h2 hr c hc]; exact hstep⟩
  · rintro ⟨hr, c, a', hc, hstep⟩
    obtain ⟨h1, h2⟩ := C86_history hs ht hle hm hp hP (ev := ev) (a := a)
    exact ⟨h1.mpr hr, c, a', hc, by rw [h2 (h1.mpr hr) c hc]; exact hstep⟩

/-- **C86** `resdetect` does exactly the same, whatever its arguments and whichever allocations fail. -/
theorem C86_resdetect (hs : s.cfg.WF) (ht : Build (relimit s P I S)) (hle : P ≤ s.cfg.pixelMax) (hm : ValidMethod? m)
    (hp : ValidParams? s.cfg p) {image : Option (List Fl)} {n W H : ℕ} (hP : W * H ≤ P)
    (himg : ∀ im, image = some im → n * (W * H) ≤ im.length) {ptr : Ptrs} (hw : w.WF) :
    resdetect s image n W H ptr m p w = resdetect (relimit s P I S) image n W H ptr m p w :=
  Twin.resdetect_eq ⟨hs, ht, hle⟩ hP hm hp hw himg

/-- **C86** `resDetect` of the JavaScript binding. -/
theorem C86_js (hs : s.cfg.WF) (ht : Build (relimit s P I S)) (hle : P ≤ s.cfg.pixelMax) (hm : ValidMethod? m) {v : JsConv}
    (hv : ∀ x, v.size x ≤ s.cfg.sizeMax) {image : List Fl} {n W H : Fl} (hP : v.size W * v.size H ≤ P)
    (himg : v.size n * (v.size W * v.size H) ≤ image.length) {d : JsObject} (hw : w.WF) :
    jsResDetect s v image n W H m d w = jsResDetect (relimit s P I S) v image n W H m d w := by
  unfold jsResDetect
  have e0 : jsParameters s.cfg v d = jsParameters (relimit s P I S).cfg v d := rfl
  rw [e0]
  cases hq : jsParameters (relimit s P I S).cfg v d w with
  | none => rw [M.bind_none hq, M.bind_none hq]
  | some x =>
    obtain ⟨r, w1⟩ := x
    rw [M.bind_some hq, M.bind_some hq]
    cases r with
    | raised e => simp only
    | ok q =>
      obtain ⟨g1, g2⟩ := jsParameters_own ht hv hw (F := True) (fun _ _ => trivial) hq
      simp only
      by_cases hlen : image.length * 4 ≤ s.cfg.sizeMax
      · rw [if_pos hlen, if_pos (show image.length * 4 ≤ (relimit s P I S).cfg.sizeMax from hlen)]
        have hn : (need (some ()) : M Unit) w1 = some ((), w1) := rfl
        rw [M.bind_some hn, M.bind_some hn]
        obtain ⟨o1, x1, a1, b1, _⟩ := malloc_own g2
        rw [M.bind_some a1, M.bind_some a1]
        cases o1 with
        | none => simp only
        | some buf =>
          simp only
          obtain ⟨o2, x2, a2, b2, _⟩ := malloc_own b1
          obtain ⟨o3, x3, a3, b3, _⟩ := malloc_own b2
          obtain ⟨o4, x4, a4, b4, _⟩ := malloc_own b3
          obtain ⟨o5, x5, a5, b5, _⟩ := malloc_own b4
          rw [M.bind_some a2, M.bind_some a3, M.bind_some a4, M.bind_some a5, M.bind_some a2, M.bind_some a3, M.bind_some a4, M.bind_some a5]
          by_cases hc : (!(o2.isSome && o3.isSome && o4.isSome && o5.isSome)) = true
          · rw [if_pos hc, if_pos hc]
          · rw [if_neg hc, if_neg hc, M.bind_apply, M.bind_apply,
              C86_resdetect hs ht hle hm (Twin.valid.mp g1) hP (by rintro _ h; cases h; exact himg) b5.wf]
      · rw [if_neg hlen, if_neg (show ¬ image.length * 4 ≤ (relimit s P I S).cfg.sizeMax from hlen)]
        have hn : (need none : M Unit) w1 = none := rfl
        rw [M.bind_none hn, M.bind_none hn]

/-- **C86** The constructor of `Analysis` in JavaScript. -/
theorem C86_js_analysis (hs : s.cfg.WF) (ht : Build (relimit s P I S)) (hle : P ≤ s.cfg.pixelMax) {v : JsConv} {W H : Fl}
    (hP : v.size W * v.size H ≤ P) {d : JsObject} : jsAnalysis s v m W H d = jsAnalysis (relimit s P I S) v m W H d := by
  unfold jsAnalysis
  simp only [C86_create hs ht hle hP]
  rfl

/-- **C86** `analyzeImage` and `analysisResults` in JavaScript, on an analysis with any history. -/
theorem C86_js_calls (hs : s.cfg.WF) (ht : Build (relimit s P I S)) (hle : P ≤ s.cfg.pixelMax) (hm : ValidMethod? m)
    (hp : ValidParams? s.cfg p) {W H : ℕ} (hP : W * H ≤ P) {ev : List (Call × Obs)} {a : Analysis} (hr : Reach s m W H p ev a)
    (hw : w.WF) (hl : ∀ b ∈ owned a, b ∈ w.live) :
    (∀ image : List Fl, W * H ≤ image.length → jsAnalyze s a image w = jsAnalyze (relimit s P I S) a image w) ∧
      jsResults s a w = jsResults (relimit s P I S) a w := by
  have h : Twin s P I S := ⟨hs, ht, hle⟩
  have hinv := reach_inv ht hm (Twin.valid.mpr hp) ((h.reach hm hp hP).mp hr)
  have hl' : ∀ b ∈ a.blocks, b ∈ w.live := fun b hb => hl b (blocks_owned b hb)
  constructor
  · intro image himg
    unfold jsAnalyze
    by_cases hlen : image.length * 4 ≤ s.cfg.sizeMax
    · rw [if_pos hlen, if_pos (show image.length * 4 ≤ (relimit s P I S).cfg.sizeMax from hlen)]
      have hn : (need (some ()) : M Unit) w = some ((), w) := rfl
      rw [M.bind_some hn, M.bind_some hn]
      obtain ⟨o, x, a1, b1, _⟩ := malloc_own (Own.init hw (F := True) (fun _ _ => trivial))
      rw [M.bind_some a1, M.bind_some a1]
      cases o with
      | none => simp only
      | some buf =>
        simp only
        rw [M.bind_apply, M.bind_apply, h.analyze_eq hinv.good (fun b hb => (b1.live b).mpr (Or.inl (hl' b hb)))
          (by rintro _ h; cases h; rw [hinv.width, hinv.height]; exact himg)]
    · rw [if_neg hlen, if_neg (show ¬ image.length * 4 ≤ (relimit s P I S).cfg.sizeMax from hlen)]
      have hn : (need none : M Unit) w = none := rfl
      rw [M.bind_none hn, M.bind_none hn]
  · unfold jsResults
    obtain ⟨o2, x2, a2, b2, _⟩ := malloc_own (Own.init hw (F := True) (fun _ _ => trivial))
    obtain ⟨o3, x3, a3, b3, _⟩ := malloc_own b2
    obtain ⟨o4, x4, a4, b4, _⟩ := malloc_own b3
    obtain ⟨o5, x5, a5, b5, _⟩ := malloc_own b4
    rw [M.bind_some a2, M.bind_some a3, M.bind_some a4, M.bind_some a5, M.bind_some a2, M.bind_some a3, M.bind_some a4, M.bind_some a5]
    by_cases hc : (!(o2.isSome && o3.isSome && o4.isSome && o5.isSome)) = true
    · rw [if_pos hc, if_pos hc]
    · rw [if_neg hc, if_neg hc, M.bind_apply, M.bind_apply,
        h.results_eq hinv.good .all (fun b hb => (b5.live b).mpr (Or.inl (hl' b hb)))]

/-- **C86** `resdetect` of the Python binding. -/
theorem C86_python (hs : s.cfg.WF) (ht : Build (relimit s P I S)) (hle : P ≤ s.cfg.pixelMax) (hm : ValidMethod? m)
    {image : Option (List Fl)} {n W H : ℤ} (hP : pySize s.cfg W * pySize s.cfg H ≤ P)
    (himg : ∀ im, image = some im → pySize s.cfg n * (pySize s.cfg W * pySize s.cfg H) ≤ im.length) {d : PyDict}
    (hd : d.unknown = false) (hw : w.WF) :
    pyResdetect s image n W H m d w = pyResdetect (relimit s P I S) image n W H m d w := by
  obtain ⟨q, w1, h1, h2, h3⟩ := pyParameters_own (F := True) ht hd hw (fun _ _ => trivial)
  have h1' : pyParameters s.cfg d w = some (.ok q, w1) := h1
  unfold pyResdetect
  rw [M.bind_some h1, M.bind_some h1']
  simp only
  rw [M.bind_apply, M.bind_apply]
  have e := C86_resdetect hs ht hle hm (Twin.valid.mp h2) hP himg h3.wf (ptr := .all)
  rw [e]
  rfl

/-! ## Where everything has 32 bits -/

/-- The default build on WebAssembly, limited to 200 million pixels. -/
private theorem wasm_twin (b : Backend) (e : Env) : Build (relimit ⟨ilp32 b, e⟩ 200000000 (2 ^ 32 - 1) (2 ^ 32 - 1)) :=
  _root_.Verif.Demo.ilp32_build b e (by norm_num) le_rfl (by norm_num) (by norm_num)

theorem wasm_scores {b : Backend} {e : Env} {W H : ℕ} (h : W ≤ 200000000 ∧ H ≤ 200000000) : ¬ HugeScores ⟨ilp32 b, e⟩ W H := by
  rintro ⟨side, h1, h2⟩
  have h2 : 4294967295 < side * 8 := h2
  omega

/-- **C86** What C69 says of `resDetect` in JavaScript holds of the default 32 bit build, for images of up to 200 million pixels: an out of
memory error, which happens only if an allocation fails, or what the library answers. -/
theorem C86_wasm {b : Backend} {e : Env} (hm : ValidMethod? m) {v : JsConv} (hv : ∀ x, v.size x ≤ (ilp32 b).sizeMax) {image : List Fl} {n W H : Fl}
    {d : JsObject} (hP : v.size W * v.size H ≤ 200000000) (hb : b = .fftw ∨ v.size W = v.size H ∨ (Plenty w ∧ 0 < v.size W ∧ 0 < v.size H))
    (hlen : image.length * 4 ≤ (ilp32 b).sizeMax) (himg : v.size n * (v.size W * v.size H) ≤ image.length) (hw : w.WF)
    {q : Option (ℕ × Params)} (hq : jsParameters (ilp32 b) v d w = some (.ok q, w1)) :
    ∃ r w', jsResDetect ⟨ilp32 b, e⟩ v image n W H m d w = some (r, w') ∧
      ((r = .raised none ∧ ∃ j, w.sched j = false) ∨
       (SameHeap w w' ∧ ∃ wc o w2, wc.WF ∧ (Plenty w → Plenty wc) ∧
        resdetect ⟨ilp32 b, e⟩ (some image) (v.size n) (v.size W) (v.size H) .all m (q.map Prod.snd) wc = some (o, w2) ∧ r = answer o)) := by
  have hs := _root_.Verif.Demo.ilp32_wf b
  have ht := wasm_twin b e
  have hle : 200000000 ≤ (⟨ilp32 b, e⟩ : Sys).cfg.pixelMax := by simp [ilp32]
  rw [C86_js hs ht hle hm hv hP himg hw]
  obtain ⟨r, w', h1, h2⟩ := C69_resDetect_partial (s := relimit ⟨ilp32 b, e⟩ 200000000 (2 ^ 32 - 1) (2 ^ 32 - 1)) ht hm (v := v) (image := image)
    (n := n) (W := W) (H := H) (d := d) (w := w) (by
      rcases hb with h | h | ⟨h, h1, h2⟩
      · exact Or.inl h
      · exact Or.inr (Or.inl h)
      · exact Or.inr (Or.inr ⟨h, wasm_scores (b := b) (e := e) ⟨le_trans (Nat.le_mul_of_pos_right _ h2) hP, le_trans (Nat.le_mul_of_pos_left _ h1) hP⟩⟩))
    hv hlen himg hw hq
  refine ⟨r, w', h1, ?_⟩
  rcases h2 with h2 | ⟨h2, wc, o, w2, h3, h4, h5, h6⟩
  · exact Or.inl h2
  · refine Or.inr ⟨h2, wc, o, w2, h3, h4, ?_, h6⟩
    have hqv : ValidParams? (ilp32 b) (q.map Prod.snd) :=
      Twin.valid.mp (jsParameters_own ht hv hw (F := True) (fun _ _ => trivial) (w1 := w1) hq).1
    rw [C86_resdetect hs ht hle hm hqv hP (by rintro _ h; cases h; exact himg) h3]
    exact h5

/-- **C86** What C83 says of `resDetect` in JavaScript holds of the default 32 bit build with the bundled transform. -/
theorem C86_wasm_exact {env : Env} {W H : ℕ} {u B e : ℝ} {pics : List (ℕ → ℕ → ℝ)}
    (h : Suited (relimit ⟨ilp32 .kiss, env⟩ 200000000 (2 ^ 32 - 1) (2 ^ 32 - 1)) m p W H u B) (hP : W * H ≤ 200000000) (h0 : 0 < W ∧ 0 < H)
    {v : JsConv} {d : JsObject} (hd : d.unknown = false) (hsane : SaneJs v d) (hdp : JsMeans (ilp32 .kiss) v d p)
    (hv : ∀ x, v.size x ≤ (ilp32 .kiss).sizeMax) {n : ℕ} {nf Wf Hf : Fl} (en : v.size nf = n) (eW : v.size Wf = W) (eH : v.size Hf = H)
    {image : List Fl} (himg : image.length * 4 ≤ (ilp32 .kiss).sizeMax) (hlen : n * (W * H) ≤ image.length) (hn : n ≠ 0)
    (hw : w.WF) (hpl : Plenty w) (hpics : List.Forall₂ (Depicts B e W H) (framesOf image W H n) pics) (hexact : Exact (ilp32 .kiss) n) :
    ∃ l1 l2 w', jsResDetect ⟨ilp32 .kiss, env⟩ v image nf Wf Hf m d w = some (.ok (l1, l2), w') ∧
      WidthsOf ⟨ilp32 .kiss, env⟩ m p W H (totalError u B e W H) pics l1 ∧
      HeightsOf ⟨ilp32 .kiss, env⟩ m p W H (totalError u B e W H) pics l2 ∧ SameHeap w w' := by
  have hle : 200000000 ≤ (⟨ilp32 .kiss, env⟩ : Sys).cfg.pixelMax := by simp [ilp32]
  rw [C86_js (_root_.Verif.Demo.ilp32_wf .kiss) h.build hle h.method hv (by rw [eW, eH]; exact hP) (by rw [en, eW, eH]; exact hlen) hw]
  have hW := le_trans (Nat.le_mul_of_pos_right W h0.2) hP
  have hH := le_trans (Nat.le_mul_of_pos_left H h0.1) hP
  refine C83_js h ?_ hd hsane hdp hv en eW eH himg hlen hn hw hpl (wasm_scores (b := .kiss) (e := env) ⟨hW, hH⟩) hpics ⟨hexact.digits, hexact.small⟩
  have e1 : (relimit ⟨ilp32 .kiss, env⟩ 200000000 (2 ^ 32 - 1) (2 ^ 32 - 1)).cfg.sizeMax = 4294967295 := rfl
  have e2 : (relimit ⟨ilp32 .kiss, env⟩ 200000000 (2 ^ 32 - 1) (2 ^ 32 - 1)).cfg.szCoeff = 4 := rfl
  have e3 : (relimit ⟨ilp32 .kiss, env⟩ 200000000 (2 ^ 32 - 1) (2 ^ 32 - 1)).cfg.pixelMax = 200000000 := rfl
  have e4 : sideMax (relimit ⟨ilp32 .kiss, env⟩ 200000000 (2 ^ 32 - 1) (2 ^ 32 - 1)).cfg = 715827882 := show (2 ^ 31 - 1) / 3 = 715827882 by norm_num
  unfold expected
  rw [e1, e2, e3, e4, if_neg (by omega), if_neg (by omega), if_neg (fun h => by cases h.1)]

/-! ## Examples -/

namespace Demo

/-- The default build on LP64 limited to 8 pixels, with index types that hold no more than 10. -/
theorem eight : Build (relimit Demo.sys 8 10 10) := relimit_build Demo.sys_build (by norm_num) (by decide +kernel) (by norm_num) (by norm_num)

end Demo

/-- The hypotheses of C86 can be met; all but the last image have 8 pixels. -/
example : Demo.sys.cfg.WF ∧ Build (relimit Demo.sys 8 10 10) ∧ 8 ≤ Demo.sys.cfg.pixelMax ∧ ValidMethod? none ∧ ValidParams? Demo.sys.cfg (some Demo.params) ∧
    Reach Demo.sys none 4 2 (some Demo.params) [(Demo.callA, .analyzed RDEOK)] Demo.analysis1 ∧ Demo.w1.WF ∧
    (∀ b ∈ owned Demo.analysis1, b ∈ Demo.w1.live) ∧ 1 * (4 * 2) ≤ Demo.image.length ∧
    (resdetect (relimit Demo.sys 8 10 10) (some Demo.image) 1 4 2 .all none (some Demo.params) Demo.w0).map (fun r => answer r.1) = some _root_.Verif.Demo.found ∧
    (resdetect (relimit Demo.sys 8 10 10) (some Demo.image) 1 3 3 .all none (some Demo.params) Demo.w0).map (fun r => r.1.1) = some RDETOOBIG :=
  ⟨Demo.sys_build.wf, Demo.eight, by decide +kernel, Demo.none_method, Demo.params_valid, Demo.reach1, Demo.w1_wf, by decide, by decide +kernel,
    by decide +kernel, by decide +kernel⟩

/-- The same results are returned. -/
example : Returned (relimit Demo.sys 8 10 10) none 4 2 (some Demo.params) [(Demo.callA, .analyzed RDEOK)] Demo.analysis1 (some Demo.listX) 3
    (some [⟨2, .fin true (-1)⟩]) 1 :=
  (C86_returned Demo.sys_build.wf Demo.eight (by decide +kernel) Demo.none_method Demo.params_valid (by norm_num)).mp demo_returned

/-- In the bindings. -/
example : pySize Demo.sys.cfg 1 * (pySize Demo.sys.cfg 4 * pySize Demo.sys.cfg 2) ≤ Demo.image.length ∧ Demo.dict.unknown = false ∧
    (pyResdetect (relimit Demo.sys 8 10 10) (some Demo.image) 1 4 2 none Demo.dict Demo.w0).map (fun r => (r.1, r.2.live)) = some (_root_.Verif.Demo.found, []) ∧
    (jsResDetect (relimit Demo.sys 8 10 10) Demo.conv Demo.image (.fin false 1) (.fin false 4) (.fin false 2) none Demo.obj Demo.w0).map
      (fun r => (r.1, r.2.live)) = some (_root_.Verif.Demo.found, []) ∧
    (jsAnalysis (relimit Demo.sys 8 10 10) Demo.conv none (.fin false 3) (.fin false 3) Demo.obj Demo.w0).map (fun r => match r.1 with
      | .ok _ => none
      | .raised e => e) = some (some RDETOOBIG) :=
  ⟨by decide +kernel, by decide +kernel, by decide +kernel, by decide +kernel, by decide +kernel⟩

/-- On a 32 bit system. -/
example : (jsParameters Demo.wasm.cfg Demo.conv32 Demo.obj Demo.w0).map Prod.fst = some (.ok (some (0, Demo.params))) ∧
    (∀ x, Demo.conv32.size x ≤ Demo.wasm.cfg.sizeMax) ∧ Demo.conv32.size (.fin false 4) * Demo.conv32.size (.fin false 2) ≤ 200000000 ∧
    Demo.image.length * 4 ≤ Demo.wasm.cfg.sizeMax ∧
    (jsResDetect Demo.wasm Demo.conv32 Demo.image (.fin false 1) (.fin false 4) (.fin false 2) none Demo.obj Demo.w0).map (fun r => (r.1, r.2.live)) =
      some (_root_.Verif.Demo.found, []) :=
  ⟨by decide +kernel, Demo.conv32_size, by decide +kernel, by decide +kernel, by decide +kernel⟩

/-- The system of C83's examples with 32 bits. -/
noncomputable def wasmN : Sys := ⟨ilp32 .kiss, Demo.sysN.env⟩

theorem wasm_suited : Suited (relimit ⟨ilp32 .kiss, Demo.sysN.env⟩ 200000000 (2 ^ 32 - 1) (2 ^ 32 - 1)) (some Demo.sign) (some Demo.rowParams) 4 1 (2 ^ (-24 : ℤ)) 1 where
  build := wasm_twin _ _
  bundled := rfl
  precise := ⟨show 2 ^ 31 - 1 ≤ 2 ^ binary64.p by decide +kernel, Demo.row_suited.precise.2⟩
  accurate := { Demo.row_suited.accurate with }
  moderate := { Demo.row_suited.moderate with }
  pixels := Demo.row_suited.pixels
  method := Demo.row_suited.method
  params := fun q hq => { Demo.row_suited.params q hq with range_le := by cases hq; show 1 ≤ 2 ^ 32 - 1; norm_num }
  sign := rfl
  unfiltered := rfl
  float := Demo.row_suited.float

/-- The hypotheses of `C86_wasm_exact` can be met. -/
example : ∃ l1 l2 w', jsResDetect wasmN Demo.conv32 ramp4 (.fin false 1) (.fin false 4) (.fin false 1) (some Demo.sign) ⟨some (.fin false 1), none, none, false⟩
    Demo.w0 = some (.ok (l1, l2), w') ∧ ⟨2, .fin false 1⟩ ∈ l1 := by
  have e1 : Demo.conv32.size (.fin false 1) = 1 := by decide +kernel
  have e4 : Demo.conv32.size (.fin false 4) = 4 := by decide +kernel
  obtain ⟨l1, l2, w', h1, h2, _⟩ := C86_wasm_exact wasm_suited (by norm_num) (by norm_num) (v := Demo.conv32) (d := ⟨some (.fin false 1), none, none, false⟩) rfl
    ⟨(by rintro n h; cases h; rw [e1]), (by rintro n h; cases h), (by rintro n h; cases h)⟩
    (Or.inr ⟨by decide, Demo.rowParams, rfl, e1.symm, rfl, rfl⟩) Demo.conv32_size e1 e4 e1 (image := ramp4)
    (show 4 * 4 ≤ 2 ^ 32 - 1 by norm_num) le_rfl one_ne_zero Demo.w0_wf (fun _ => rfl) Demo.row_sampled ⟨Demo.row_exact.digits, Demo.row_exact.small⟩
  exact ⟨l1, l2, w', h1, Demo.row_finds (by positivity) (by norm_num) h2⟩

end Verif.Props
