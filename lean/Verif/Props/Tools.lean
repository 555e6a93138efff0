import Verif.Proofs.ImgRead
import Verif.Proofs.ToolLemmas
import Verif.Proofs.ProfileLemmas
import Verif.Proofs.Fences
import Verif.Props.Cli

/-! # The development tools (C49, C50, C53, C60) -/

namespace Verif.Props

open Spec

variable {s s' : Sys} {io io' : Io} {v : CliEnv} {input : List UInt8} {fuel : ℕ} {w w' : World} {W H : ℕ} {frames : List (List Fl)} {e : RDError}

/-! ## imgread -/

/-- **C49** On a little endian host imgread writes a PFM of the frames it reads, and leaves nothing behind. -/
theorem C49_pfm (hio : Inbuilt s io (resdetOpenImage s io (some input) none true true true)) (hle : s.cfg.littleEndian = true)
    (hy : Yields (resdetOpenImage s io (some input) none true true true) W H frames e)
    (he : e ≠ RDEOK → -(s.cfg.intMax : ℤ) ≤ e ∧ e ≤ resdetGetMaxError) (hfuel : frames.length < fuel) (hw : w.WF) :
    ∃ w', Unchanged w w' ∧ ((imgMain s io v fuel input true w = some ((RDENOMEM, none), w') ∧ ¬ Plenty w) ∨
      ∃ file images, imgMain s io v fuel input true w = some ((e, some file), w') ∧ PfmFile W H images file ∧
        images.map PfmImage.samples = frames) := by
  obtain ⟨name, r, Ok, x, hx⟩ := source_of_yields hio.usable ⟨w, hw⟩ hy
  rcases hx.imgMain_act (v := v) (canWrite := true) hle (F := ∃ j, w.sched j = false) he hfuel (L := []) (S := []) w w (Own.init hw (fun j hj => ⟨j, hj⟩)) with
    ⟨_, h⟩ | ⟨a, w', L', S', h1, ow, hL, rfl, h2⟩
  · exact h.elim
  · have hL : L' = [] := hL.eq_nil
    subst hL
    refine ⟨w', ow.same, ?_⟩
    rcases h2 with ⟨rfl, j, h2⟩ | ⟨h2, _⟩ | ⟨file, _, rfl, h2⟩
    · exact Or.inl ⟨h1, fun hp => by rw [hp j] at h2; cases h2⟩
    · cases h2
    · obtain ⟨images, h3, h4⟩ := h2.file
      exact Or.inr ⟨file, images, h1, h3, h4⟩

/-- **C49** Reading back the file imgread writes, on any host, yields exactly the frames imgread read. -/
theorem C49_round_trip (hio : Inbuilt s io (resdetOpenImage s io (some input) none true true true)) (hle : s.cfg.littleEndian = true)
    (hy : Yields (resdetOpenImage s io (some input) none true true true) W H frames e)
    (he : e ≠ RDEOK → -(s.cfg.intMax : ℤ) ≤ e ∧ e ≤ resdetGetMaxError) (hfuel : frames.length < fuel) (hw : w.WF) {file : List UInt8} {e' : RDError}
    (hrun : imgMain s io v fuel input true w = some ((e', some file), w')) (h0 : frames ≠ []) {name : List UInt8} {k : Bool} {m : M Opened}
    (ho : io'.omitPfm = false) (hu : Uses s' io' name (cs "pfm") m) (hh : io'.fs.Holds name (file, k)) (hwi : Within s'.cfg W H)
    (hk : k = true → file.length ≤ s'.cfg.longMax) :
    e' = e ∧ Yields m W H frames RDEOK := by
  obtain ⟨w1, _, ⟨h1, _⟩ | ⟨file', images, h1, h2, h3⟩⟩ := C49_pfm (v := v) hio hle hy he hfuel hw
  · rw [hrun] at h1; cases h1
  · rw [hrun] at h1
    cases h1
    refine ⟨rfl, ?_⟩
    rw [← h3]
    exact C35_pfm ho hu hh h2 (by rintro rfl; exact h0 (by rw [← h3]; rfl)) hwi hk

/-- The two pixels of a.pgm as a PFM. -/
def Demo.written : List UInt8 := cs "Pf\n2 1\n-1.0\n" ++ [0, 0, 0, 0, 0, 0, 128, 63]

example : Inbuilt Demo.sys Demo.io (resdetOpenImage Demo.sys Demo.io (some (cs "a.pgm")) none true true true) ∧
    Demo.sys.cfg.littleEndian = true ∧ Demo.w0.WF ∧ Plenty Demo.w0 ∧
    Yields (resdetOpenImage Demo.sys Demo.io (some (cs "a.pgm")) none true true true) 2 1 [[normal 255 0, normal 255 255]] RDEOK ∧
    (∃ w', imgMain Demo.sys Demo.io Demo.cliEnv 2 (cs "a.pgm") true Demo.w0 = some ((RDEOK, some Demo.written), w')) ∧
    Uses Demo.sys (Demo.disk Demo.written true) (cs "a." ++ cs "pfm") (cs "pfm") (Demo.openAs "pfm" Demo.written true) ∧
    (Demo.disk Demo.written true).fs.Holds (cs "a." ++ cs "pfm") (Demo.written, true) ∧ Within Demo.sys.cfg 2 1 := by
  refine ⟨Or.inl Demo.io_plain, rfl, Demo.w0_wf, fun _ => rfl, demo_yields, ?_, Demo.uses_as (by decide) _ _, Demo.disk_holds (by decide), by unfold Within; decide⟩
  have h : (imgMain Demo.sys Demo.io Demo.cliEnv 2 (cs "a.pgm") true Demo.w0).map Prod.fst = some (RDEOK, some Demo.written) := by decide +kernel
  obtain ⟨⟨a, w'⟩, h1, h2⟩ := Option.map_eq_some_iff.mp h
  simp only at h2
  subst h2
  exact ⟨w', h1⟩

/-! ## stat -/

/-- **C53** Every element `statres` reads exists, for every list of candidates with the final entry behind it. -/
theorem C53_statres (c : Cfg) (init : List Res) (last : Res) : statres c (init ++ [last]) init.length ≠ none := by
  obtain ⟨_, _, _, h, _⟩ := statres_eq c init last
  rw [h]
  simp

/-- **C53** Whenever `resdetect_file` returns and its error, if any, can be put into words, so does stat: it returns the error, and on
success it prints figures for both lists and leaves nothing behind. -/
theorem C53_stat (hio : io.Contract s.cfg) (hs : Build s) (hw : w.WF) {method : Option (List UInt8)} {out : Out} {w1 : World}
    (h : resdetectFile s io fuel (some input) none Ptrs.all (resdetGetMethod (method.map textOf)) none w = some ((e, out), w1))
    (he : e ≠ RDEOK → -(s.cfg.intMax : ℤ) ≤ e) :
    ∃ r w', statMain s io v fuel input method w = some ((e, r), w') ∧ (e ≠ RDEOK → r = none) ∧
      (e = RDEOK → Unchanged w w' ∧ ∃ W H ev a l1 l2 x1 x2 a1 a2, Returned s (resdetGetMethod (method.map textOf)) W H none ev a
        (some (l1 ++ [x1])) (l1.length + 1) (some (l2 ++ [x2])) (l2.length + 1) ∧ statres s.cfg (l1 ++ [x1]) l1.length = some a1 ∧
        statres s.cfg (l2 ++ [x2]) l2.length = some a2 ∧ r = some (a1, a2)) := by
  have hm := getMethod_valid (method.map textOf)
  have hp : ValidParams? s.cfg none := by simp [ValidParams?]
  have hcode : e ≤ 7 := by
    have h1 := C23_file_codes hio hs hm hp hw h
    rcases h1 with h1 | h1
    · exact le_trans (le_of_lt h1) (by decide)
    · revert h1
      simp only
      generalize e = e
      intro h1
      simp only [messages, List.map_cons, List.map_nil, List.mem_cons, List.not_mem_nil, or_false] at h1
      rcases h1 with rfl | rfl | rfl | rfl | rfl | rfl | rfl | rfl <;> decide
  rw [statMain_eq, M.bind_some h]
  rcases file_safe (F := True) (L := []) (S := []) (fn := some input) (ft := none) (ptr := Ptrs.all) hio hs hm hp trivial (fuel := fuel) w w
    (Own.init hw (fun _ _ => trivial)) with ⟨h1, _⟩ | ⟨a, w2, L', S', h1, ow, rfl, h2⟩
  · rw [h] at h1; cases h1
  rw [h] at h1
  cases h1
  have fail : e ≠ 0 → out = Out.nothing → ∀ P : Option (Stat × Stat) → World → Prop,
      ∃ r w', statTail s v (e, out) w1 = some ((e, r), w') ∧ (e ≠ RDEOK → r = none) ∧ (e = RDEOK → P r w') := by
    rintro h0 rfl P
    rcases statTail_fail (v := v) (U := False) h0 ⟨he h0, hcode⟩ w w1 ow with ⟨_, h⟩ | ⟨a, w', _, _, h3, _, rfl⟩
    · exact h.elim
    · exact ⟨none, w', h3, fun _ => rfl, fun h => absurd h h0⟩
  rcases h2 with ⟨h2, _, _⟩ | ⟨_, ⟨h2, _, h3, _⟩ | ⟨W, H, hd⟩⟩
  · cases h2; exact fail (by decide) rfl _
  · exact fail h2 h3 _
  · cases hd with
    | create e L' hc => exact fail (by cases hc <;> decide) rfl _
    | stopped ev a e _ _ hne => exact fail hne rfl _
    | results ev a c e out L' h1 h2 h3 h4 h5 h6 _ h8 =>
      by_cases h0 : e = 0
      · subst h0
        obtain ⟨b1, b2, l1, l2, x1, x2, hl⟩ := lists_of_results hs hm hp h1 h3 h4 h5
        rw [hl.rw, hl.rh] at h8
        rcases statTail_ok (v := v) (U := False) hl h8 w w1 ow with ⟨_, h⟩ | ⟨r, w', L2, S2, k1, ow2, k2, rfl, a1, a2, rfl, k3, k4⟩
        · exact h.elim
        · have k2 := k2.eq_nil
          subst k2
          exact ⟨_, w', k1, fun h => absurd rfl h, fun _ => ⟨ow2.same, W, H, ev, a, l1, l2, x1, x2, a1, a2, hl.returned, k3, k4, rfl⟩⟩
      · exact fail h0 (h6 h0) _

example : Demo.io.Contract Demo.sys.cfg ∧ Build Demo.sys ∧ Demo.w0.WF ∧
    (resdetectFile Demo.sys Demo.io 3 (some (cs "a.y4m")) none Ptrs.all (resdetGetMethod ((some (cs "sign")).map textOf)) none Demo.w0).map (fun r => r.1.1) =
      some RDEOK :=
  ⟨Demo.io_contract _, Demo.sys_build, Demo.w0_wf, by decide +kernel⟩

/-- **C60** What stat is for does not work.  The lists are in descending order and stat looks for the first candidate that reaches
the fence, so either no candidate is listed as an outlier or all are, including those below the fences. -/
theorem C60_fails_all_or_none {c : Cfg} {l : List Res} {x : Res} {st : Stat} (hl : Descending (l ++ [x])) (h : statres c (l ++ [x]) l.length = some st) :
    st.mild ++ st.extreme = [] ∨ st.mild ++ st.extreme = l := by
  obtain ⟨inner, outer, median, h1, _⟩ := statres_eq c l x
  rw [h] at h1
  cases h1
  have e1 : below outer (reaching inner l) ++ reaching outer (reaching inner l) = reaching inner l := List.takeWhile_append_dropWhile
  simp only [e1]
  exact reaching_all_or_none (List.pairwise_append.mp hl).1 inner

/-- **C60** What stat prints for a list in descending order: the median and fences are, up to rounding, what the formulas in it say
(`statQuartile`), but with the quartiles the wrong way round the fences lie below the first candidate, so all candidates are listed as extreme
outliers and none as mild. -/
theorem C60_fails_fences {c : Cfg} {l : List Res} {x : Res} (ht : ∀ r ∈ l ++ [x], Tame r) (hl : Descending (l ++ [x])) (hc : 3 * (l.length + 1) ≤ c.sizeMax)
    (hn : 3 * (l.length + 1) ≤ 2 ^ 53) : ∃ st, statres c (l ++ [x]) l.length = some st ∧
    st.median.isfinite = true ∧ st.inner.isfinite = true ∧ st.outer.isfinite = true ∧
    |val st.median - (confidenceAt (l ++ [x]) (l.length / 2) + confidenceAt (l ++ [x]) ((l.length + 1) / 2)) / 2| ≤ 1 / 2 ^ 22 ∧
    |val st.inner - (statQuartile (l ++ [x]) l.length 3 + 3 * (statQuartile (l ++ [x]) l.length 3 - statQuartile (l ++ [x]) l.length 1))| ≤ 1 / 2 ^ 17 ∧
    |val st.outer - (statQuartile (l ++ [x]) l.length 3 + 6 * (statQuartile (l ++ [x]) l.length 3 - statQuartile (l ++ [x]) l.length 1))| ≤ 1 / 2 ^ 17 ∧
    st.mild = [] ∧ st.extreme = l :=
  statres_all ht hl hc hn

/-- **C60** The same for the lists of every detection in the conditions of C02: stat lists all candidates as extreme outliers. -/
theorem C60_fails_detection (hs : Build s) (hpr : Precise s.cfg) {m : Option Method} {p : Option Params} (hm : ValidMethod? m) (hp : ValidParams? s.cfg p)
    {ev : List (Call × Obs)} {a : Analysis} {rw rh : Option (List Res)} {cw ch : ℕ} (hno : NoOom ev) (hk : (analysed ev).length ≤ 2 ^ s.cfg.inter.p)
    (hk' : (analysed ev).length ≤ s.cfg.sizeMax) (hr : Returned s m W H p ev a rw cw rh ch) {l : List Res} {x : Res}
    (hl : rw = some (l ++ [x]) ∨ rh = some (l ++ [x])) (hc : 3 * (l.length + 1) ≤ s.cfg.sizeMax) (hn : 3 * (l.length + 1) ≤ 2 ^ 53) :
    ∃ st, statres s.cfg (l ++ [x]) l.length = some st ∧ st.mild = [] ∧ st.extreme = l := by
  have hg := returned_got hs hm hp hr
  have key : ∀ {len : ℕ} {res : Option (Buf Fl)}, l ++ [x] = dimList s a len res →
      (∃ init, l ++ [x] = init ++ [⟨len, .fin true (-1)⟩] ∧ ∀ r ∈ init, InUnit r.confidence) →
      ∃ st, statres s.cfg (l ++ [x]) l.length = some st ∧ st.mild = [] ∧ st.extreme = l := by
    rintro len res h1 ⟨init, h2, h3⟩
    obtain ⟨init', h4, h5, h6⟩ := dimList_shape (s := s) (length := len) (result := res) hg.inv.threshold
    obtain ⟨e1, e2⟩ := List.append_inj' (h2.symm.trans (h1.trans h4)) rfl
    obtain ⟨e3, e4⟩ := List.append_inj' h2 rfl
    subst e1
    have e4 : x = ⟨len, .fin true (-1)⟩ := by simpa using e4
    subst e3
    have ht : ∀ r ∈ l ++ [x], Tame r := by
      intro r hr
      rcases List.mem_append.mp hr with hr | hr
      · obtain ⟨b, v, hv, h0, h1⟩ := h3 r hr
        refine ⟨b, v, hv, abs_le.mpr ⟨by linarith, h1⟩, ?_⟩
        obtain ⟨i, hi, _, rfl⟩ := mem_candidates.mp (h5.mem_iff.mp hr)
        exact conv_rep hv
      · rw [List.mem_singleton.mp hr, e4]
        exact ⟨true, -1, rfl, by norm_num, by decide +kernel⟩
    obtain ⟨st, k1, _, _, _, _, _, _, k2, k3⟩ := C60_fails_fences ht (by rw [h1]; exact h6) hc hn
    exact ⟨st, k1, k2, k3⟩
  obtain ⟨u1, u2⟩ := C02_confidence_unit hs hpr hm hp hno hk hk' hr
  rcases hl with hl | hl
  · exact key (hg.listX _ hl) (u1 _ hl)
  · exact key (hg.listY _ hl) (u2 _ hl)

/-- **C60** A detection that returns a candidate of confidence 0 which is listed as an extreme outlier. -/
theorem C60_fails : ∃ ev a, Returned Demo.sys none 4 2 (some Demo.params) ev a (some Demo.listX) 3 (some [⟨2, .fin true (-1)⟩]) 1 ∧
    ∃ st, statres Demo.sys.cfg Demo.listX 2 = some st ∧ ⟨1, .fin false 0⟩ ∈ st.extreme := by
  refine ⟨_, _, demo_returned, ?_⟩
  have h : (statres Demo.sys.cfg Demo.listX 2).map (fun st => decide ((⟨1, .fin false 0⟩ : Res) ∈ st.extreme)) = some true := by decide +kernel
  obtain ⟨st, h1, h2⟩ := Option.map_eq_some_iff.mp h
  exact ⟨st, h1, of_decide_eq_true h2⟩

example : Descending Demo.listX ∧ Demo.listX = [⟨2, .fin false (1/2)⟩, ⟨1, .fin false 0⟩] ++ [⟨4, .fin true (-1)⟩] ∧
    (statres Demo.sys.cfg Demo.listX 2).isSome = true :=
  ⟨((C01_sorted_sentinel Demo.sys_build Demo.none_method Demo.params_valid demo_returned).1 _ rfl).1, rfl, by decide +kernel⟩

example : ∃ st, statres Demo.sys.cfg Demo.listX 2 = some st ∧ st.mild = [] ∧ st.extreme = [⟨2, .fin false (1/2)⟩, ⟨1, .fin false 0⟩] :=
  C60_fails_detection Demo.sys_build demo_precise Demo.none_method Demo.params_valid
    (by intro x hx; simp only [List.mem_singleton] at hx; rw [hx]; decide)
    (by decide +kernel) (by decide +kernel) demo_returned (l := [⟨2, .fin false (1/2)⟩, ⟨1, .fin false 0⟩]) (x := ⟨4, .fin true (-1)⟩) (Or.inl rfl)
    (by decide +kernel) (by decide)

example : (∀ r ∈ Demo.listX, Tame r) ∧ 3 * (2 + 1) ≤ Demo.sys.cfg.sizeMax := by
  refine ⟨?_, by decide⟩
  intro r hr
  have : r = ⟨2, .fin false (1/2)⟩ ∨ r = ⟨1, .fin false 0⟩ ∨ r = ⟨4, .fin true (-1)⟩ := by simpa [Demo.listX] using hr
  rcases this with rfl | rfl | rfl
  · exact ⟨_, _, rfl, by norm_num, by decide +kernel⟩
  · exact ⟨_, _, rfl, by norm_num, by decide +kernel⟩
  · exact ⟨_, _, rfl, by norm_num, by decide +kernel⟩

/-- **C60** The median of a single candidate is not its confidence: the final entry, -1, enters. -/
theorem C60_fails_median (c : Cfg) (hc : 2 ≤ c.sizeMax) (r x : Res) :
    (statres c [r, x] 1).map Stat.median = some (binary32.div (binary32.add r.confidence x.confidence) (binary32.ofNat 2)) := by
  obtain ⟨inner, outer, median, h1, a, b, h2, h3, h4⟩ := statres_eq c [r] x
  have e : c.sz 2 = 2 := by unfold Cfg.sz; exact Nat.mod_eq_of_lt (by omega)
  have h1 : statres c [r, x] 1 = _ := h1
  rw [h1]
  have h2 : confidence [r, x] 0 = some a := by
    rw [show ([r] : List Res).length / 2 = 0 by simp] at h2
    exact h2
  have h2 : some r.confidence = some a := h2
  have h3 : confidence [r, x] (c.sz 2 / 2) = some b := h3
  rw [e] at h3
  have h3 : confidence [r, x] 1 = some b := by
    rw [show 2 / 2 = 1 by norm_num] at h3
    exact h3
  have h3 : some x.confidence = some b := h3
  cases h2; cases h3
  rw [← h4]; rfl

/-! ## profile -/

/-- **C50** The counts of `diffres` for any lists, as long as they fit into `size_t`: never less than the truth, with the right
difference, and exact for two ascending lists.  Missing: exactness for the lists detection returns, see `C50_fails`. -/
theorem C50_counts_partial {c : Cfg} (known : List ℕ) (found : List Res) (x : Res) (plus minus : ℕ) {fuel : ℕ} (hf : known.length + found.length < fuel) :
    ∃ p q, Tallied known (found.map Res.index) p q ∧
      diffres c known known.length (found ++ [x]) found.length fuel 0 0 plus minus = some ((plus + p) % (c.sizeMax + 1), (minus + q) % (c.sizeMax + 1)) := by
  refine ⟨_, _, merge_counted known (found.map Res.index), ?_⟩
  rw [diffres_eq (by simp) (by omega) (by omega) (by omega)]
  simp only [List.take_left, List.drop_zero]
  rfl

example : ([1, 3] : List ℕ).length + [(⟨2, .fin false 1⟩ : Res), ⟨3, .fin false 0⟩].length < 5 ∧
    ([1, 3] : List ℕ).Pairwise (· < ·) ∧ ([(⟨2, .fin false 1⟩ : Res), ⟨3, .fin false 0⟩].map Res.index).Pairwise (· < ·) ∧
    absent [2, 3] [1, 3] = 1 := by decide

/-- **C50** A detection whose candidates 2 and 1 are exactly the known sizes 1 and 2, and yet one of them is counted as unknown and one
as missed: the candidates are in order of confidence. -/
theorem C50_fails : ∃ ev a, Returned Demo.sys none 4 2 (some Demo.params) ev a (some Demo.listX) 3 (some [⟨2, .fin true (-1)⟩]) 1 ∧
    absent [2, 1] [1, 2] = 0 ∧ absent [1, 2] [2, 1] = 0 ∧ Demo.listX.map Res.index = [2, 1] ++ [4] ∧
    diffres Demo.sys.cfg [1, 2] 2 Demo.listX 2 5 0 0 0 0 = some (1, 1) :=
  ⟨_, _, demo_returned, by decide, by decide, by decide, by decide +kernel⟩

/-- **C50** The figures of a method for an image: no undefined behaviour, and unless detection fails they are the tallies of both
dimensions, of the lists detection of all frames returns.  If there is memory, it fails only when it must.  Missing: `C50_fails`. -/
theorem C50_method_partial (hs : Build s) {m : Method} (hm : m ∈ methods) {image : List Fl} {d : ℕ} (h1 : image.length ≤ s.cfg.sizeMax)
    (h2 : d * (W * H) ≤ image.length) (kw kh : List ℕ) (hw : w.WF) :
    ∃ r w', profileMethod s v image d W H kw kh m w = some (r, w') ∧ (∀ plus minus, r = some (plus, minus) → Unchanged w w' ∧
      ∃ ev a l1 x1 l2 x2, Fed (framesOf image W H d) RDEOK ev ∧
        Returned s (some m) W H none ev a (some (l1 ++ [x1])) (l1.length + 1) (some (l2 ++ [x2])) (l2.length + 1) ∧
        ∃ p1 q1 p2 q2, Tallied kw (l1.map Res.index) p1 q1 ∧ Tallied kh (l2.map Res.index) p2 q2 ∧
          plus = (p1 + p2) % (s.cfg.sizeMax + 1) ∧ minus = (q1 + q2) % (s.cfg.sizeMax + 1)) ∧
      (r = none → Plenty w → ¬ HugeScores s W H → Failing s W H (framesOf image W H d)) := by
  have huge : LinesTooBig s.cfg W H → HugeScores s W H := by
    rintro (h | h)
    · exact ⟨W, Or.inl rfl, h⟩
    · exact ⟨H, Or.inr rfl, h⟩
  rcases profileMethod_act (v := v) (F := (∃ j, w.sched j = false) ∨ HugeScores s W H) (L := []) (S := []) hs hm h1 h2
    (fun h => Or.inr (huge h)) kw kh w w (Own.init hw (fun j hj => Or.inl ⟨j, hj⟩)) with ⟨_, h⟩ | ⟨r, w', L', S', k1, ow, _, rfl, k2⟩
  · exact h.elim
  · refine ⟨r, w', k1, ?_, ?_⟩
    rotate_left
    · rintro rfl hpl hnh
      rcases k2 with ⟨_, (⟨j, h⟩ | h) | h⟩ | ⟨_, _, _, _, _, _, _, _, _, h⟩
      · rw [hpl j] at h; cases h
      · exact absurd h hnh
      · exact h
      · cases h
    rintro plus minus rfl
    rcases k2 with ⟨k2, _⟩ | ⟨hL, ev, a, l1, x1, l2, x2, g1, g2, g3⟩
    · cases k2
    · have := hL.eq_nil
      subst this
      cases g3
      exact ⟨ow.same, ev, a, l1, x1, l2, x2, g1, g2, _, _, _, _, merge_counted _ _, merge_counted _ _, rfl, rfl⟩

example : Build Demo.sys ∧ (⟨"sign", .sign, binary32.deliver false (55 / 100)⟩ : Method) ∈ methods ∧ (List.replicate 8 (Fl.fin false 0)).length ≤ Demo.sys.cfg.sizeMax ∧
    1 * (4 * 2) ≤ (List.replicate 8 (Fl.fin false 0)).length ∧
    ((profileMethod Demo.sys Demo.cliEnv (List.replicate 8 (Fl.fin false 0)) 1 4 2 [2] [1]
      ⟨"sign", .sign, binary32.deliver false (55 / 100)⟩ Demo.w0).map (fun r => r.1.isSome)) = some true :=
  ⟨Demo.sys_build, by simp [methods], by decide +kernel, by decide, by decide +kernel⟩

/-- **C50** A line of the dictionary with numerals separated by single spaces is read as these sizes. -/
theorem C50_known {c : Cfg} {ns : List ℕ} {t : List UInt8} (h : SizeLine ns t) (hn : ∀ n ∈ ns, n ≤ c.sizeMax ∧ n < 2 ^ 64) (hw : w.WF) (hp : Plenty w) :
    ∃ b w', readres c (chop (t ++ [ch '\n'])) w = some (some ⟨b, ns⟩, w') := by
  rw [chop_line (sizeLine_nul h)]
  have hk := sizeLine_pieces h (max := ullMax) (fun n hn' => by have := (hn n hn').2; unfold ullMax; omega)
  rcases readres_act (c := c) (F := False) (L := []) (S := []) t w w (Own.init hw (fun j hj => by rw [hp j] at hj; cases hj)) with
    ⟨_, h⟩ | ⟨r, w', L', S', k1, _, rfl, ⟨_, _, k2 | k2⟩ | ⟨b, ks, k2, rfl, _⟩⟩
  · exact h.elim
  · exact k2.elim
  · rw [hk] at k2; cases k2
  · rw [hk] at k2
    cases k2
    refine ⟨b, w', ?_⟩
    have : ns.map c.sz = ns.map id := List.map_congr_left (fun n hn' => Nat.mod_eq_of_lt (by have := (hn n hn').1; omega))
    rw [k1, this, List.map_id]

example : SizeLine [640, 8] (cs "640 8") ∧ (∀ n ∈ [640, 8], n ≤ Demo.sys.cfg.sizeMax ∧ n < 2 ^ 64) ∧ Demo.w0.WF ∧ Plenty Demo.w0 := by
  refine ⟨.more 640 (cs "640") [8] (cs "8") ?_ (.last 8 (cs "8") ?_), by decide +kernel, Demo.w0_wf, Demo.w0_plenty⟩
  · exact ⟨by decide, by unfold Digits; decide, by decide⟩
  · exact ⟨by decide, by unfold Digits; decide, by decide⟩

/-- **C50** Without a newline at the end of the file the last known size loses its last digit. -/
theorem C50_fails_newline {c : Cfg} (hc : 640 ≤ c.sizeMax) (hw : w.WF) (hp : Plenty w) : ∃ b w', readres c (chop (cs "640 480")) w = some (some ⟨b, [640, 48]⟩, w') := by
  have h := C50_known (c := c) (w := w) (.more 640 (cs "640") [48] (cs "48") ⟨by decide, by unfold Digits; decide, by decide⟩
    (.last 48 (cs "48") ⟨by decide, by unfold Digits; decide, by decide⟩)) (by simp; omega) hw hp
  exact h

end Verif.Props
