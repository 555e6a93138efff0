import Verif.Model.Bindings
import Verif.Props.Params
import Verif.Props.Bulk
import Verif.Spec.DemoFiles
import Verif.Spec.Bindings

/-! # The Python and JavaScript bindings (C51, C52, C61) -/

namespace Verif.Props

open Spec

variable {s : Sys} {io : Io} {c : Cfg} {w w' : World}

/-! ## Parameters -/

theorem alloc_plenty (hw : w.WF) (hp : Plenty w) : ∃ b w', resdetAllocDefaultParameters c w = some (some (b, defaultParams c), w') := by
  unfold resdetAllocDefaultParameters
  rcases Act.malloc (U := False) (F := False) (L := []) (S := []) w w (Own.init hw (fun j hj => by rw [hp j] at hj; cases hj)) with
    ⟨_, h⟩ | ⟨r, w', _, _, h1, _, _, ⟨_, _, h⟩ | ⟨b, rfl, _⟩⟩
  · exact h.elim
  · exact h.elim
  · exact ⟨b, w', by rw [M.bind_some h1]; rfl⟩

theorem set_some (p : Params) (k : Setter) : ∃ q, (k.call (some p)).2 = some q := by
  by_cases h : k.Acceptable
  · exact ⟨_, by rw [(C21_setter (some p) k).1 p rfl h]⟩
  · exact ⟨_, by rw [(C21_setter (some p) k).2 (Or.inr h)]⟩

/-- The setter calls the Python binding makes for a dictionary. -/
def pyCalls (c : Cfg) (d : PyDict) : List Setter :=
  (d.range.map (fun n => Setter.range (pySize c n))).toList ++ ((d.threshold.map (fun t => Setter.threshold (binary32.conv t))).toList ++
    (d.compressionFilter.map (fun n => Setter.filter (pyByte n))).toList)

theorem pySet_eq (d : PyDict) (p : Option Params) : pySet c d p = (setAll p (pyCalls c d)).2 := by
  unfold pySet pyCalls
  cases d.range <;> cases d.threshold <;> cases d.compressionFilter <;> rfl

theorem setAll_some (p : Params) (ks : List Setter) : ∃ q, (setAll (some p) ks).2 = some q := by
  induction ks generalizing p with
  | nil => exact ⟨p, rfl⟩
  | cons k ks ih =>
    obtain ⟨q, hq⟩ := set_some p k
    obtain ⟨q', hq'⟩ := ih q
    exact ⟨q', by simp only [setAll, hq, hq']⟩

theorem pyDict_empty (d : PyDict) : d.isEmpty = true ↔ d = {} := by
  obtain ⟨r, t, f, u⟩ := d
  cases r <;> cases t <;> cases f <;> cases u <;> simp [PyDict.isEmpty]

theorem jsObject_empty (d : JsObject) : d.isEmpty = true ↔ d = {} := by
  obtain ⟨r, t, f, u⟩ := d
  cases r <;> cases t <;> cases f <;> cases u <;> simp [JsObject.isEmpty]

/-- **C51** The Python binding never reports a rejected parameter: with known keys only, no dictionary of numbers makes it raise an
exception, whatever the values are. -/
theorem C51_python_fails {d : PyDict} (hd : d.unknown = false) (hw : w.WF) (hp : Plenty w) :
    ∃ p w', pyParameters c d w = some (.ok p, w') := by
  unfold pyParameters
  by_cases he : d.isEmpty = true
  · rw [if_pos he]; exact ⟨_, _, rfl⟩
  · rw [if_neg he, hd, if_neg (by simp)]
    obtain ⟨b, w', h⟩ := alloc_plenty (c := c) hw hp
    rw [M.bind_some h]
    exact ⟨_, w', rfl⟩

/-- **C51** Constructing an analysis with range 0, threshold 2 and filter 32 is the same as constructing it with the default parameters. -/
theorem C51_python_ignored_fails {m : Option Method} {W H : ℤ} : ∃ d : PyDict, d.range = some 0 ∧ d.threshold = some (.fin false 2) ∧
    d.compressionFilter = some 32 ∧ pyAnalysis s m W H d = (do
      match ← resdetAllocDefaultParameters s.cfg with
      | none => pyAnalysis s m W H {}
      | some (b, p) => do
        let (a, e) ← createAnalysis s m (pySize s.cfg W) (pySize s.cfg H) (some p)
        free (some b)
        match a with
        | none => return .raised (some e)
        | some a => return .ok a) := by
  refine ⟨⟨some 0, some (.fin false 2), some 32, false⟩, rfl, rfl, rfl, ?_⟩
  have e1 : pySize s.cfg 0 = 0 := by unfold pySize; simp
  have e3 : pyByte 32 = 32 := by decide
  have e2 : binary32.conv (.fin false 2) = .fin false 2 := by decide +kernel
  have h1 : ∀ p, pySet s.cfg ⟨some 0, some (.fin false 2), some 32, false⟩ (some p) = some p := by
    intro p
    unfold pySet
    simp only [e1, e2, e3]
    have t : (Fl.fin false 2).gt (.fin false 1) = true := by decide
    simp [setRange, setThreshold, setCompressionFilter, t]
  funext w
  unfold pyAnalysis pyParameters
  rw [if_neg (by simp [PyDict.isEmpty]), if_neg (by simp)]
  cases hm : resdetAllocDefaultParameters s.cfg w with
  | none => rw [M.bind_none (M.bind_none hm), M.bind_none hm]
  | some r =>
    obtain ⟨o, w1⟩ := r
    rw [M.bind_some hm]
    cases o with
    | none => rw [M.bind_some (M.bind_some hm)]; rfl
    | some bp =>
      obtain ⟨b, p⟩ := bp
      rw [M.bind_some (M.bind_some hm)]
      simp only [h1]
      rfl

/-- **C51** Values are converted without a check before the library sees them, so that a filter of 256 is accepted as 0. -/
theorem C51_python_wraps_fails (p : Params) : pySet c ⟨none, none, some 256, false⟩ (some p) = some { p with compressionFilter := 0 } := rfl

/-- **C51** What holds for Python: unknown keys raise an exception, and values in range all take effect. -/
theorem C51_python_partial {d : PyDict} :
    (d.unknown = true → pyParameters c d w = some (.raised none, w)) ∧
    (d = {} → pyParameters c d w = some (.ok none, w)) ∧
    (d.unknown = false → d ≠ {} → Sane c d → w.WF → Plenty w → ∃ b p w', pyParameters c d w = some (.ok (some (b, p)), w') ∧
      (p.range : ℤ) = d.range.getD c.defaultRange ∧ p.threshold = (d.threshold.map binary32.conv).getD (.fin true (-1)) ∧
      (p.compressionFilter : ℤ) = d.compressionFilter.getD 0) := by
  constructor
  · intro hd
    unfold pyParameters
    have : d.isEmpty = false := by simp [PyDict.isEmpty, hd]
    rw [if_neg (by simp [this]), if_pos hd]; rfl
  refine ⟨fun he => ?_, ?_⟩
  · unfold pyParameters
    rw [if_pos ((pyDict_empty d).mpr he)]; rfl
  · intro hd he hs hw hp
    have he : d.isEmpty = false := by rw [← Bool.not_eq_true]; exact fun h => he ((pyDict_empty d).mp h)
    obtain ⟨b, w', h⟩ := alloc_plenty (c := c) hw hp
    unfold pyParameters
    rw [if_neg (by simp [he]), if_neg (by simp [hd]), M.bind_some h]
    simp only
    have size : ∀ n : ℤ, 1 ≤ n → n ≤ c.sizeMax → (pySize c n : ℤ) = n ∧ pySize c n ≠ 0 := by
      intro n h1 h2
      have e : n % (c.sizeMax + 1 : ℤ) = n := Int.emod_eq_of_lt (by omega) (by omega)
      unfold pySize
      rw [e]
      omega
    have byte : ∀ n : ℤ, 0 ≤ n → n ≤ 31 → (pyByte n : ℤ) = n ∧ ¬ pyByte n > 4 * 8 - 1 := by
      intro n h1 h2
      have e : n % 256 = n := Int.emod_eq_of_lt (by omega) (by omega)
      unfold pyByte
      rw [e]
      omega
    have g1 : ∀ r : Option ℤ, (∀ n, r = some n → 1 ≤ n ∧ n ≤ c.sizeMax) → ∃ p : Params, (match r with
        | some n => (setRange (some (defaultParams c)) (pySize c n)).2
        | none => some (defaultParams c)) = some p ∧ (p.range : ℤ) = r.getD c.defaultRange ∧ p.threshold = .fin true (-1) ∧ p.compressionFilter = 0 := by
      intro r hr
      cases r with
      | none => exact ⟨_, rfl, rfl, rfl, rfl⟩
      | some n =>
        obtain ⟨k1, k2⟩ := hr n rfl
        obtain ⟨k3, k4⟩ := size n k1 k2
        simp only [setRange, if_neg k4]
        exact ⟨_, rfl, k3, rfl, rfl⟩
    obtain ⟨p1, e1, a1, a2, a3⟩ := g1 _ hs.range
    have g2 : ∀ t : Option Fl, (∀ x, t = some x → InUnit (binary32.conv x)) → ∃ p : Params, (match t with
        | some t => (setThreshold (some p1) (binary32.conv t)).2
        | none => some p1) = some p ∧ p.range = p1.range ∧ p.threshold = (t.map binary32.conv).getD (.fin true (-1)) ∧
          p.compressionFilter = p1.compressionFilter := by
      intro t ht
      cases t with
      | none => exact ⟨_, rfl, rfl, a2, rfl⟩
      | some t =>
        have k := (threshold_test (binary32.conv t)).mpr (ht t rfl)
        simp only [setThreshold, k]
        exact ⟨_, rfl, rfl, rfl, rfl⟩
    obtain ⟨p2, e2, b1, b2, b3⟩ := g2 _ hs.threshold
    have g3 : ∀ f : Option ℤ, (∀ n, f = some n → 0 ≤ n ∧ n ≤ 31) → ∃ p : Params, (match f with
        | some n => (setCompressionFilter (some p2) (pyByte n)).2
        | none => some p2) = some p ∧ p.range = p2.range ∧ p.threshold = p2.threshold ∧ (p.compressionFilter : ℤ) = f.getD 0 := by
      intro f hf
      cases f with
      | none => exact ⟨_, rfl, rfl, rfl, by rw [b3, a3]; rfl⟩
      | some n =>
        obtain ⟨k1, k2⟩ := hf n rfl
        obtain ⟨k3, k4⟩ := byte n k1 k2
        simp only [setCompressionFilter, if_neg k4]
        exact ⟨_, rfl, rfl, rfl, k3⟩
    obtain ⟨p3, e3, c1, c2, c3⟩ := g3 _ hs.filter
    refine ⟨b, p3, w', ?_, by rw [c1, b1, a1], by rw [c2, b2], c3⟩
    have e : pySet c d (some (defaultParams c)) = some p3 := by
      rw [← e2, ← e1] at e3
      exact e3
    rw [e]; rfl

example : Sane (lp64 .fftw) ⟨some 12, some (.fin false (1/2)), some 8, false⟩ ∧ (⟨some 12, some (.fin false (1/2)), some 8, false⟩ : PyDict) ≠ {} ∧
    Demo.w0.WF ∧ Plenty Demo.w0 := by
  refine ⟨⟨?_, ?_, ?_⟩, by decide, Demo.w0_wf, Demo.w0_plenty⟩
  · rintro n ⟨rfl⟩; exact ⟨by decide, by decide +kernel⟩
  · rintro t ⟨rfl⟩
    have : binary32.conv (.fin false (1/2)) = .fin false (1/2) := by decide +kernel
    rw [this]
    exact ⟨false, 1/2, rfl, by norm_num, by norm_num⟩
  · rintro n ⟨rfl⟩; decide

/-- **C51** When memory runs out, the Python binding silently drops all parameters. -/
theorem C51_python_memory_fails {d : PyDict} (hd : d.unknown = false) (hm : malloc w = some (none, w')) : pyParameters c d w = some (.ok none, w') ∨
    d = {} := by
  by_cases he : d.isEmpty = true
  · exact Or.inr ((pyDict_empty d).mp he)
  · left
    unfold pyParameters
    rw [if_neg he, if_neg (by simp [hd])]
    have h : resdetAllocDefaultParameters c w = some (none, w') := by
      unfold resdetAllocDefaultParameters
      rw [M.bind_some hm]; rfl
    rw [M.bind_some h]
    obtain ⟨r, t, f, u⟩ := d
    cases r <;> cases t <;> cases f <;> rfl

/-- The setter calls the JavaScript binding makes for an object. -/
def jsCalls (v : JsConv) (d : JsObject) : List Setter :=
  (d.range.map (fun n => Setter.range (v.size n))).toList ++ ((d.threshold.map (fun t => Setter.threshold (v.float t))).toList ++
    (d.compressionFilter.map (fun n => Setter.filter (v.byte n))).toList)

theorem jsSet_eq (v : JsConv) (d : JsObject) (p : Option Params) :
    jsSet v d p = (((setAll p (jsCalls v d)).1.getLast?).getD 0, (setAll p (jsCalls v d)).2) := by
  unfold jsSet jsCalls
  cases d.range <;> cases d.threshold <;> cases d.compressionFilter <;> rfl

theorem jsParameters_eq {v : JsConv} {d : JsObject} (hd : d.unknown = false) (he : d.isEmpty = false) (hw : w.WF) (hp : Plenty w) :
    ∃ b w', jsParameters c v d w = some (if (jsSet v d (some (defaultParams c))).1 ≠ 0 then .raised (some (jsSet v d (some (defaultParams c))).1)
      else .ok ((jsSet v d (some (defaultParams c))).2.map (fun p => (b, p))), w') ∧ resdetAllocDefaultParameters c w = some (some (b, defaultParams c), w') := by
  obtain ⟨b, w', h⟩ := alloc_plenty (c := c) hw hp
  refine ⟨b, w', ?_, h⟩
  unfold jsParameters
  rw [if_neg (by simp [he]), if_neg (by simp [hd]), M.bind_some h]
  simp only
  split_ifs <;> rfl

/-- **C51** The JavaScript binding does not report a rejected range if an acceptable threshold is given too. -/
theorem C51_js_fails {v : JsConv} {n t : Fl} (hn : v.size n = 0) (ht : InUnit (v.float t)) (hw : w.WF) (hp : Plenty w) :
    ∃ b w', jsParameters c v ⟨some n, some t, none, false⟩ w = some (.ok (some (b, { defaultParams c with threshold := v.float t })), w') := by
  obtain ⟨b, w', h, _⟩ := jsParameters_eq (c := c) (v := v) (d := ⟨some n, some t, none, false⟩) rfl rfl hw hp
  have e : jsSet v ⟨some n, some t, none, false⟩ (some (defaultParams c)) = (RDEOK, some { defaultParams c with threshold := v.float t }) := by
    unfold jsSet
    simp only [setRange, hn, if_true, setThreshold, (threshold_test _).mpr ht]
    rfl
  rw [e] at h
  exact ⟨b, w', h⟩

/-- **C51** What holds for JavaScript: unknown keys raise an exception, so does a rejected value if it is the last of those given in
the order range, threshold, filter, and if no value is rejected, none is raised and all take effect.  Missing: `C51_js_fails`. -/
theorem C51_js_partial {v : JsConv} {d : JsObject} :
    (d.unknown = true → jsParameters c v d w = some (.raised none, w)) ∧
    (d = {} → jsParameters c v d w = some (.ok none, w)) ∧
    (d.unknown = false → d ≠ {} → w.WF → Plenty w → ∃ r w', jsParameters c v d w = some (r, w') ∧
      ((∃ k, (jsCalls v d).getLast? = some k ∧ ¬ k.Acceptable) → r = .raised (some RDEPARAM)) ∧
      (SaneJs v d → ∃ b p, r = .ok (some (b, p)) ∧ p.range = (d.range.map v.size).getD c.defaultRange ∧
        p.threshold = (d.threshold.map v.float).getD (.fin true (-1)) ∧ p.compressionFilter = (d.compressionFilter.map v.byte).getD 0)) := by
  constructor
  · intro hd
    unfold jsParameters
    have : d.isEmpty = false := by simp [JsObject.isEmpty, hd]
    rw [if_neg (by simp [this]), if_pos hd]; rfl
  refine ⟨fun he => ?_, ?_⟩
  · unfold jsParameters
    rw [if_pos ((jsObject_empty d).mpr he)]; rfl
  · intro hd he hw hp
    have he : d.isEmpty = false := by rw [← Bool.not_eq_true]; exact fun h => he ((jsObject_empty d).mp h)
    obtain ⟨b, w', h, _⟩ := jsParameters_eq (c := c) (v := v) hd he hw hp
    refine ⟨_, w', h, ?_, ?_⟩
    · rintro ⟨k, hk, hbad⟩
      have : (jsSet v d (some (defaultParams c))).1 = RDEPARAM := by
        rw [jsSet_eq]
        obtain ⟨l, hl⟩ := List.getLast?_eq_some_iff.mp hk
        rw [hl]
        clear hl
        have : ∀ (p : Option Params), (setAll p (l ++ [k])).1.getLast? = some RDEPARAM := by
          intro p
          induction l generalizing p with
          | nil => simp [setAll, (C21_setter p k).2 (Or.inr hbad)]
          | cons a l ih =>
            rw [List.cons_append, setAll, List.getLast?_cons, ih]
            rfl
        rw [this]; rfl
      rw [this, if_pos (by decide)]
    · intro hs
      obtain ⟨r, t, f, u⟩ := d
      have k1 : ∀ n, r = some n → ¬ v.size n = 0 := fun n hn => by have := hs.range n hn; omega
      have k2 : ∀ x, t = some x → ((v.float x).isnan || (v.float x).lt (.fin false 0) || (v.float x).gt (.fin false 1)) = false :=
        fun x hx => (threshold_test _).mpr (hs.threshold x hx)
      have k3 : ∀ n, f = some n → ¬ v.byte n > 4 * 8 - 1 := fun n hn => by have := hs.filter n hn; omega
      have : ∃ p : Params, jsSet v ⟨r, t, f, u⟩ (some (defaultParams c)) = (0, some p) ∧ p.range = (r.map v.size).getD c.defaultRange ∧
          p.threshold = (t.map v.float).getD (.fin true (-1)) ∧ p.compressionFilter = (f.map v.byte).getD 0 := by
        clear h he hd hs
        cases r with
        | none =>
          cases t with
          | none =>
            cases f with
            | none => exact ⟨_, rfl, rfl, rfl, rfl⟩
            | some n => simp only [jsSet, setCompressionFilter, if_neg (k3 n rfl)]; exact ⟨_, rfl, rfl, rfl, rfl⟩
          | some x =>
            cases f with
            | none => simp only [jsSet, setThreshold, k2 x rfl]; exact ⟨_, rfl, rfl, rfl, rfl⟩
            | some n => simp only [jsSet, setThreshold, k2 x rfl, Bool.false_eq_true, if_false, setCompressionFilter, if_neg (k3 n rfl)]; exact ⟨_, rfl, rfl, rfl, rfl⟩
        | some m =>
          cases t with
          | none =>
            cases f with
            | none => simp only [jsSet, setRange, if_neg (k1 m rfl)]; exact ⟨_, rfl, rfl, rfl, rfl⟩
            | some n => simp only [jsSet, setRange, if_neg (k1 m rfl), setCompressionFilter, if_neg (k3 n rfl)]; exact ⟨_, rfl, rfl, rfl, rfl⟩
          | some x =>
            cases f with
            | none => simp only [jsSet, setRange, if_neg (k1 m rfl), setThreshold, k2 x rfl]; exact ⟨_, rfl, rfl, rfl, rfl⟩
            | some n => simp only [jsSet, setRange, if_neg (k1 m rfl), setThreshold, k2 x rfl, Bool.false_eq_true, if_false, setCompressionFilter, if_neg (k3 n rfl)]; exact ⟨_, rfl, rfl, rfl, rfl⟩
      obtain ⟨p, e, a1, a2, a3⟩ := this
      rw [e, if_neg (by simp)]
      exact ⟨b, p, rfl, a1, a2, a3⟩

/-- **C51** Every exception for a rejected value leaves the parameter object allocated for good. -/
theorem C51_js_leaks_fails {v : JsConv} {d : JsObject} {e : RDError} (hw : w.WF) (h : jsParameters c v d w = some (.raised (some e), w')) :
    ∃ b, b ∉ w.live ∧ b ∈ w'.live := by
  unfold jsParameters at h
  split_ifs at h with h1 h2
  · cases h
  · cases h
  · rcases Act.malloc (U := False) (F := True) (L := []) (S := []) w w (Own.init hw (fun _ _ => trivial)) with
      ⟨_, h⟩ | ⟨r, w1, L1, _, k1, ow, _, ⟨rfl, _, _⟩ | ⟨b, rfl, rfl⟩⟩
    · exact h.elim
    · have k : resdetAllocDefaultParameters c w = some (none, w1) := by unfold resdetAllocDefaultParameters; rw [M.bind_some k1]; rfl
      rw [M.bind_some k] at h
      cases h
    · have k : resdetAllocDefaultParameters c w = some (some (b, defaultParams c), w1) := by unfold resdetAllocDefaultParameters; rw [M.bind_some k1]; rfl
      rw [M.bind_some k] at h
      simp only at h
      split_ifs at h
      · cases h
        exact ⟨b, (ow.new b (by simp)).1, (ow.live b).mpr (Or.inr (by simp))⟩
      · cases h

/-! ## Image buffers -/

/-- The components of an index. -/
def parts : PyIndex → List ℤ
  | .int n => [n]
  | .tuple l => l

/-- **C52** With components that are not negative and a buffer that holds as many samples as its attributes say: `__getitem__` raises an
exception or reads inside of the buffer; `(f, y, x)` in range reads sample `(f*height + y)*width + x`, `(y, x)` the same with
frame 0, and `n` in range reads sample `n`.  Missing: negative components (`C52_fails`), buffers of `with_dimensions` (`C52_allocation_fails`). -/
theorem C52_partial {b : PyBuffer} (hw : 0 ≤ b.width) (hh : 0 ≤ b.height) (hn : 0 ≤ b.nimages) (hb : b.width * b.height * b.nimages ≤ b.size) :
    (∀ i n, (∀ k ∈ parts i, 0 ≤ k) → pyIndex b i = some n → ∃ k, pyRead b n = some k ∧ k < b.size) ∧
    (∀ f y x, 0 ≤ f → f < b.nimages → 0 ≤ y → y < b.height → 0 ≤ x → x < b.width →
      pyIndex b (.tuple [f, y, x]) = some ((f * b.height + y) * b.width + x) ∧ (f = 0 → pyIndex b (.tuple [y, x]) = some (y * b.width + x))) ∧
    (∀ f y x, (b.nimages ≤ f ∨ b.height ≤ y ∨ b.width ≤ x) → pyIndex b (.tuple [f, y, x]) = none) ∧
    (∀ n, 0 ≤ n → n < b.width * b.height * b.nimages → pyIndex b (.int n) = some n) := by
  obtain ⟨size, W, H, N⟩ := b
  simp only at hw hh hn hb
  have bound : ∀ f y x : ℤ, 0 ≤ f → f < N → 0 ≤ y → y < H → 0 ≤ x → x < W → (f * H + y) * W + x < W * H * N := by
    intro f y x hf hf' hy hy' hx hx'
    have h1 : f * H + y + 1 ≤ N * H := by nlinarith
    nlinarith
  have read : ∀ n : ℤ, 0 ≤ n → n < W * H * N → ∃ k, pyRead ⟨size, W, H, N⟩ n = some k ∧ k < size := by
    intro n h0 h1
    refine ⟨n.toNat, ?_, by omega⟩
    unfold pyRead
    exact if_pos ⟨h0, lt_of_lt_of_le h1 hb⟩
  have pick : ∀ f y x : ℤ, pyIndex ⟨size, W, H, N⟩ (.tuple [f, y, x]) =
      if f ≥ N ∨ y ≥ H ∨ x ≥ W then none else
        if (f * H + y) * W + x ≥ W * H * N then none else some ((f * H + y) * W + x) := by
    intro f y x
    simp only [pyIndex, List.length_cons, List.length_nil]
    by_cases h1 : f ≥ N
    · simp [h1]
    · by_cases h2 : y ≥ H
      · simp [h1, h2]
      · by_cases h3 : x ≥ W
        · simp [h1, h2, h3]
        · simp [h1, h2, h3]
  have two : ∀ y x : ℤ, pyIndex ⟨size, W, H, N⟩ (.tuple [y, x]) = pyIndex ⟨size, W, H, N⟩ (.tuple [0, y, x]) := fun y x => rfl
  have triple : ∀ f y x n : ℤ, 0 ≤ f → 0 ≤ y → 0 ≤ x → pyIndex ⟨size, W, H, N⟩ (.tuple [f, y, x]) = some n →
      ∃ k, pyRead ⟨size, W, H, N⟩ n = some k ∧ k < size := by
    intro f y x n hf hy hx h
    rw [pick] at h
    split_ifs at h with h1 h2
    cases h
    exact read _ (by positivity) (by omega)
  refine ⟨?_, ?_, ?_, ?_⟩
  · intro i n hp h
    cases i with
    | int m =>
      simp only [pyIndex] at h
      split_ifs at h with h1
      cases h
      exact read n (hp n (by simp [parts])) (by omega)
    | tuple l =>
      rcases l with _ | ⟨a, _ | ⟨y, _ | ⟨x, _ | ⟨z, l⟩⟩⟩⟩
      · simp [pyIndex] at h
      · simp [pyIndex] at h
      · rw [two] at h
        exact triple 0 a y n le_rfl (hp a (by simp [parts])) (hp y (by simp [parts])) h
      · exact triple a y x n (hp a (by simp [parts])) (hp y (by simp [parts])) (hp x (by simp [parts])) h
      · simp [pyIndex] at h
  · intro f y x hf hf' hy hy' hx hx'
    simp only at hf' hy' hx'
    have : ∀ f : ℤ, 0 ≤ f → f < N → pyIndex ⟨size, W, H, N⟩ (.tuple [f, y, x]) = some ((f * H + y) * W + x) := by
      intro f hf hf'
      have := bound f y x hf hf' hy hy' hx hx'
      rw [pick, if_neg (by omega), if_neg (by omega)]
    refine ⟨this f hf hf', fun h0 => ?_⟩
    subst h0
    rw [two, this 0 le_rfl hf']
    simp
  · intro f y x h
    rw [pick, if_pos h]
  · intro n h0 h1
    simp only at h1
    simp only [pyIndex]
    exact if_neg (by omega)

example : (0 : ℤ) ≤ (⟨12, 3, 2, 2⟩ : PyBuffer).width ∧ (0 : ℤ) ≤ (⟨12, 3, 2, 2⟩ : PyBuffer).height ∧ (0 : ℤ) ≤ (⟨12, 3, 2, 2⟩ : PyBuffer).nimages ∧
    (⟨12, 3, 2, 2⟩ : PyBuffer).width * (⟨12, 3, 2, 2⟩ : PyBuffer).height * (⟨12, 3, 2, 2⟩ : PyBuffer).nimages ≤ (⟨12, 3, 2, 2⟩ : PyBuffer).size ∧
    pyIndex ⟨12, 3, 2, 2⟩ (.tuple [1, 0, 2]) = some 8 := by decide

/-- **C52** The buffer `read_image` returns is such a buffer, whatever readers are compiled in. -/
theorem C52_read_image (hio : io.Contract s.cfg) {fn ft : Option (List UInt8)} {o : ReadOut} (hw : w.WF)
    (h : readImage s io fn ft true true w = some (o, w')) (h0 : o.error = RDEOK) {i : PyIndex} {n : ℤ} (hi : ∀ k ∈ parts i, 0 ≤ k) :
    ∃ b, o.images = some b ∧ (pyIndex ⟨b.data.length, o.width, o.height, o.nimages⟩ i = some n → ∃ x, b.data[n.toNat]? = some x ∧ 0 ≤ n) := by
  obtain ⟨b, h1, _, _, _, h2, _⟩ := (C45_memory hio hw h).images h0
  refine ⟨b, h1, fun h3 => ?_⟩
  obtain ⟨k, h4, h5⟩ := (C52_partial (b := ⟨b.data.length, o.width, o.height, o.nimages⟩) (by simp) (by simp) (by simp) (by simp only; exact_mod_cast h2)).1 i n hi h3
  unfold pyRead at h4
  split_ifs at h4 with h6
  cases h4
  exact ⟨_, List.getElem?_eq_getElem h5, h6.1⟩

example : Demo.io.Contract Demo.sys.cfg ∧ Demo.w0.WF ∧ (readImage Demo.sys Demo.io (some (cs "a.y4m")) none true true Demo.w0).map (fun r =>
    (r.1.error, pyIndex ⟨4, r.1.width, r.1.height, r.1.nimages⟩ (.tuple [1, 0, 1]))) = some (RDEOK, some 3) :=
  ⟨Demo.io_contract _, Demo.w0_wf, by decide +kernel⟩

/-- **C52** Negative components are not refused: index -1 of any buffer with at least one sample reads in front of it. -/
theorem C52_fails {b : PyBuffer} (hb : 0 ≤ b.width * b.height * b.nimages) : pyIndex b (.int (-1)) = some (-1) ∧ pyRead b (-1) = none := by
  constructor
  · simp only [pyIndex]
    exact if_neg (by omega)
  · unfold pyRead
    exact if_neg (by omega)

/-- **C52** A negative x silently addresses the row above. -/
theorem C52_row_fails : pyIndex ⟨6, 3, 2, 1⟩ (.tuple [1, -1]) = some 2 := by decide

/-- **C52** `with_dimensions` leaves room for a single image only, so that the first sample of the second one lies outside. -/
theorem C52_allocation_fails {W H N : ℤ} (hW : 0 < W) (hH : 0 < H) (hN : 1 < N) (hfit : W * H * 4 ≤ c.sizeMax) (hw : w.WF) :
    ∃ b w', pyWithDimensions c W H N w = some (b, w') ∧ ∃ n, pyIndex b (.tuple [1, 0, 0]) = some n ∧ pyRead b n = none := by
  have hpos : 0 < W * H := by positivity
  have key : ∀ size : ℕ, (size : ℤ) ≤ W * H → ∃ n, pyIndex ⟨size, W, H, N⟩ (.tuple [1, 0, 0]) = some n ∧ pyRead ⟨size, W, H, N⟩ n = none := by
    intro size hs
    have h1 : H * W < W * H * N := by nlinarith
    refine ⟨H * W, ?_, ?_⟩
    · simp only [pyIndex, List.length_cons, List.length_nil]
      simp [not_le.mpr hN, not_le.mpr hH, not_le.mpr hW, h1]
    · unfold pyRead
      exact if_neg (by rintro ⟨_, h⟩; simp only at h; rw [mul_comm] at h; omega)
  unfold pyWithDimensions
  rcases Act.malloc (U := False) (F := True) (L := []) (S := []) w w (Own.init hw (fun _ _ => trivial)) with
    ⟨_, h⟩ | ⟨r, w', _, _, h1, _, _, ⟨rfl, _, _⟩ | ⟨b, rfl, _⟩⟩
  · exact h.elim
  · rw [M.bind_some h1]
    exact ⟨_, w', rfl, key 0 (by omega)⟩
  · rw [M.bind_some h1]
    refine ⟨_, w', rfl, key _ ?_⟩
    have e : W * H * 4 % (c.sizeMax + 1 : ℤ) = W * H * 4 := Int.emod_eq_of_lt (by positivity) (by omega)
    unfold pySize
    rw [e]
    omega

example : (0 : ℤ) < 3 ∧ (0 : ℤ) < 2 ∧ (1 : ℤ) < 2 ∧ (3 : ℤ) * 2 * 4 ≤ (lp64 .fftw).sizeMax ∧ Demo.w0.WF :=
  ⟨by decide, by decide, by decide, by decide +kernel, Demo.w0_wf⟩

/-! ## numpy arrays -/

/-- **C61** For square images element `[y, x]` of the array is the sample at column `x` of row `y`, and for images of any size the array
given back to `resdetect` is analysed with the right width and height.  Missing: `C61_fails`. -/
theorem C61_partial (b : PyBuffer) : ndSize (pyShape b) = (b.width, b.height) ∧
    (b.width = b.height → ∀ x y, 0 ≤ x → x < b.width → 0 ≤ y → y < b.height → ndOffset (pyShape b) y x = some (y * b.width + x)) := by
  refine ⟨rfl, fun h x y h1 h2 h3 h4 => ?_⟩
  unfold ndOffset pyShape
  simp only
  rw [if_pos ⟨h3, by omega, h1, by omega⟩, h]

/-- **C61** The shape is given as (width, height) although the rows come one after the other.  As soon as width and height differ and
both exceed 1, an element of the array is another sample than the one it should be, whether `[x, y]` or `[y, x]` is meant. -/
theorem C61_fails {b : PyBuffer} (hw : 1 < b.width) (hh : 1 < b.height) (hne : b.width ≠ b.height) :
    (∃ x y, 0 ≤ x ∧ x < b.width ∧ 0 ≤ y ∧ y < b.height ∧ ndOffset (pyShape b) y x ≠ some (y * b.width + x)) ∧
    (∃ x y, 0 ≤ x ∧ x < b.width ∧ 0 ≤ y ∧ y < b.height ∧ ndOffset (pyShape b) x y ≠ some (y * b.width + x)) := by
  constructor
  · refine ⟨0, 1, le_rfl, by omega, by omega, hh, ?_⟩
    unfold ndOffset pyShape
    simp only
    rw [if_pos ⟨by omega, hw, le_rfl, by omega⟩]
    simpa using fun h => hne h.symm
  · refine ⟨0, 1, le_rfl, by omega, by omega, hh, ?_⟩
    unfold ndOffset pyShape
    simp only
    rw [if_pos ⟨le_rfl, by omega, by omega, hh⟩]
    intro h
    simp only [zero_mul, zero_add, one_mul, add_zero, Option.some.injEq] at h
    omega

example : (1 : ℤ) < (⟨6, 3, 2, 1⟩ : PyBuffer).width ∧ (1 : ℤ) < (⟨6, 3, 2, 1⟩ : PyBuffer).height ∧
    (⟨6, 3, 2, 1⟩ : PyBuffer).width ≠ (⟨6, 3, 2, 1⟩ : PyBuffer).height := by decide

/-- **C61** An array of several images is taken for images of shape[0] by shape[1], shape[2] of them, but in memory these lie interleaved: what
the library takes for column 1 of row 0 of the first image belongs to another one, whichever of the first two indices is the row. -/
theorem C61_frames_fails {shape : ℤ × ℤ × ℤ} (h0 : 1 < shape.1) (h1 : 1 < shape.2.1) (h2 : 1 < shape.2.2) :
    ndSize3 shape = (shape.2.2, shape.1, shape.2.1) ∧ ndOffset3 shape 0 0 1 = some 1 ∧ ndOffset3 shape 1 0 0 ≠ some 1 ∧ ndOffset3 shape 0 1 0 ≠ some 1 := by
  obtain ⟨a, b, n⟩ := shape
  simp only at h0 h1 h2
  refine ⟨rfl, ?_, ?_, ?_⟩
  · unfold ndOffset3
    simp only
    rw [if_pos ⟨le_rfl, by omega, le_rfl, by omega, by omega, h2⟩]
    simp
  · unfold ndOffset3
    simp only
    rw [if_pos ⟨by omega, h0, le_rfl, by omega, le_rfl, by omega⟩]
    intro h
    have h := Option.some.inj h
    nlinarith
  · unfold ndOffset3
    simp only
    rw [if_pos ⟨le_rfl, by omega, by omega, h1, le_rfl, by omega⟩]
    intro h
    have h := Option.some.inj h
    omega

example : (1 : ℤ) < ((4, 2, 3) : ℤ × ℤ × ℤ).1 ∧ ndOffset3 (4, 2, 3) 1 1 2 = some 11 := by decide

end Verif.Props
