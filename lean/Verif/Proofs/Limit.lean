import Verif.Spec.Limit
import Verif.Proofs.HistoryLemmas

/-! `PIXEL_MAX` and the index types do not matter for images within the limit. -/

namespace Verif

open Spec

/-- `s` and `relimit s P I S` are both sane, the latter supported, and its limit is the smaller one. -/
structure Twin (s : Sys) (P I S : ℕ) : Prop where
  wf : s.cfg.WF
  build : Build (relimit s P I S)
  le : P ≤ s.cfg.pixelMax

/-- A supported build stays supported with a smaller limit. -/
theorem relimit_build {s : Sys} (hs : Build s) {P I S : ℕ} (h0 : 0 < P) (hP : P ≤ s.cfg.pixelMax) (hI : P ≤ I) (hS : P ≤ S) :
    Build (relimit s P I S) where
  wf := { hs.wf with
    pixel_pos := h0
    pixel_le := le_trans hP hs.wf.pixel_le
    pixel_idx := hI
    pixel_stor := hS }
  kiss := fun hk => by
    obtain ⟨h1, h2, h3⟩ := hs.kiss hk
    exact ⟨h1, fun n a b => h2 n a (le_trans b hP), fun n a b => h3 n a (le_trans b hP)⟩
  results := fun n a b => hs.results n a (le_trans b hP)

section
variable {s : Sys} {P I S : ℕ}

theorem butterfly_intMax {T : Type} (A : Arith T) {c c' : Cfg} (h : c'.intMax = c.intMax) : butterfly A c' = butterfly A c := by
  have e : kfBflyGeneric A c' = kfBflyGeneric A c := by
    funext st fstride m p out
    unfold kfBflyGeneric
    rw [h]
  funext st fstride m p out
  unfold butterfly
  rw [e]

theorem kfWork_intMax {T : Type} (A : Arith T) {c c' : Cfg} (h : c'.intMax = c.intMax) (st : FftCfg) (f : List (Cpx T)) (k : ℕ)
    (l : List (ℕ × ℕ)) : ∀ off fstride, kfWork A c' st f k l off fstride = kfWork A c st f k l off fstride := by
  induction l with
  | nil => intro _ _; rfl
  | cons x l ih =>
    intro off fstride
    unfold kfWork
    simp only [ih, butterfly_intMax A h]

theorem kissTransform_intMax {T : Type} (A : Arith T) {c c' : Cfg} (h : c'.intMax = c.intMax) (junk : Cpx T) (p : KissPlan) (f : List T) :
    kissTransform A c' junk p f = kissTransform A c junk p f := by
  unfold kissTransform kissDct dctRow kissFftr kissFft
  simp only [kfWork_intMax A h]

theorem transform_relimit (p : Plan) (f : List Fl) : transform (relimit s P I S) p f = transform s p f := by
  cases p with
  | fftw b q w h => rfl
  | kiss p =>
    show kissTransform s.arith (relimit s P I S).cfg _ p f = kissTransform s.arith s.cfg _ p f
    exact kissTransform_intMax s.arith (c := s.cfg) (c' := (relimit s P I S).cfg) rfl _ p f

theorem Twin.good (h : Twin s P I S) {a : Analysis} (hg : Good (relimit s P I S) a) : Good s a where
  method := hg.method
  width_pos := hg.width_pos
  height_pos := hg.height_pos
  pixels := le_trans hg.pixels h.le
  bytes := hg.bytes
  sideX := hg.sideX
  sideY := hg.sideY
  f := hg.f
  p := by
    obtain ⟨p, h1, h2⟩ := hg.p
    refine ⟨p, h1, ?_⟩
    cases h2 with
    | fftw b q e => exact .fftw b q e
    | kiss p g e => exact .kiss p { g with } e
  x := hg.x
  y := hg.y
  range_pos := hg.range_pos
  zerox := hg.zerox
  threshold := hg.threshold
  filter := hg.filter

theorem Twin.detect_eq (ht : Twin s P I S) {d : Detect} {f : List Fl} {length n stride dist range : ℕ}
    (h : Geom (relimit s P I S).cfg f length n stride dist range) (g : Geom s.cfg f length n stride dist range)
    (hz : d = .zerox → range = 1) {result : List Fl} (hlen : result.length = length - 2 * range) :
    detect s d f length n stride dist range result (range, length - range) =
      detect (relimit s P I S) d f length n stride dist range result (range, length - range) := by
  unfold detect
  cases d with
  | sign => simp only [detectSign_eq s g hlen, detectSign_eq _ h hlen]; rfl
  | mag => simp only [detectMag_eq s g hlen, detectMag_eq _ h hlen]; rfl
  | zerox =>
    have := hz rfl
    subst this
    simp only [detectZerox_eq s g hlen, detectZerox_eq _ h hlen]; rfl
  | orig =>
    have hroom := h.room
    have hi := g.len_idx
    have hj := h.len_idx
    simp only
    unfold detectOrig
    simp only [Cfg.idx_eq (c := s.cfg) (n := range) (by omega), Cfg.idx_eq (c := (relimit s P I S).cfg) (n := range) (by omega),
      Cfg.idx_eq (c := s.cfg) (n := range * 2) (by omega), Cfg.idx_eq (c := (relimit s P I S).cfg) (n := range * 2) (by omega)]
    rw [if_neg (by omega), if_neg (by omega)]
    have h3 : s.cfg.szSub length range = length - range := Cfg.szSub_eq (by omega) (by
      have h1 := h.inb 0 (length - 1) h.n_pos (by omega)
      have h2 := g.size
      have h3 := h.dist_pos
      have h4 : length - 1 ≤ (length - 1) * dist := Nat.le_mul_of_pos_right _ h3
      omega)
    have h4 : (relimit s P I S).cfg.szSub length range = length - range := h3
    simp only [h3, h4, Cfg.idx_eq (c := s.cfg) (n := length - range) (by omega),
      Cfg.idx_eq (c := (relimit s P I S).cfg) (n := length - range) (by omega), origSums_eq g, origSums_eq h]
    have e1 := origLoop_eq s g hlen
    have e2 := origLoop_eq _ h hlen
    refine congrArg (M.bind _) ?_
    funext b
    cases b with
    | none => rfl
    | some b =>
      funext w
      simp only
      rw [M.bind_some (M.lift_apply_some _ w), M.bind_some (M.lift_apply_some _ w), e1, e2]
      rfl

theorem Twin.setup_eq (ht : Twin s P I S) {length range : ℕ} (hl : length ≤ P) (hsz : length < s.cfg.sizeMax) :
    setupDimension s.cfg length range = setupDimension (relimit s P I S).cfg length range := by
  have e0 : s.cfg.sz (length + 1) = length + 1 := Cfg.sz_eq (by omega)
  have e0' : (relimit s P I S).cfg.sz (length + 1) = length + 1 := e0
  unfold setupDimension
  rw [e0, e0']
  by_cases h1 : range < (length + 1) / 2
  · have hi := ht.wf.pixel_idx
    have hj : P ≤ I := ht.build.wf.pixel_idx
    have hP := ht.le
    have e3 : s.cfg.szSub length range = length - range := Cfg.szSub_eq (by omega) (by omega)
    have e3' : (relimit s P I S).cfg.szSub length range = length - range := e3
    simp only [e3, e3', Cfg.idx_eq (c := s.cfg) (n := range) (by omega), Cfg.idx_eq (c := s.cfg) (n := length - range) (by omega),
      Cfg.idx_eq (c := (relimit s P I S).cfg) (n := range) (by show range ≤ I; omega),
      Cfg.idx_eq (c := (relimit s P I S).cfg) (n := length - range) (by show length - range ≤ I; omega)]
    rfl
  · simp only [if_neg h1, if_true]

theorem Twin.create_eq (ht : Twin s P I S) (m : Option Method) {w h : ℕ} (hP : w * h ≤ P) (p : Option Params) :
    createAnalysis s m w h p = createAnalysis (relimit s P I S) m w h p := by
  have h2 := ht.wf.szCoeff_two
  have hd : dimsExceedLimit s.cfg w h 1 s.cfg.szCoeff =
      dimsExceedLimit (relimit s P I S).cfg w h 1 (relimit s P I S).cfg.szCoeff := by
    rw [Bool.eq_iff_iff, ← Bool.not_eq_false, ← Bool.not_eq_false, not_iff_not, dimsExceedLimit_false (by omega),
      dimsExceedLimit_false (by show 0 < s.cfg.szCoeff; omega)]
    have hle := ht.le
    exact ⟨fun ⟨a, b, c, _, e⟩ => ⟨a, b, c, by show w * h * 1 ≤ P; omega, e⟩,
      fun ⟨a, b, c, _, e⟩ => ⟨a, b, c, by omega, e⟩⟩
  by_cases hx : dimsExceedLimit s.cfg w h 1 s.cfg.szCoeff = true
  · unfold createAnalysis
    simp only [← hd, hx, if_true]
    rfl
  · have hfit := (dimsExceedLimit_false (c := s.cfg) (w := w) (h := h) (n := 1) (e := s.cfg.szCoeff) (by omega)).mp (by simpa using hx)
    obtain ⟨h3, h4, _, _, h5⟩ := hfit
    have h6 : w * h * 2 ≤ s.cfg.sizeMax := le_trans (Nat.mul_le_mul_left _ h2) (by simpa using h5)
    have h7 : w ≤ w * h := Nat.le_mul_of_pos_right _ h4
    have h8 : h ≤ w * h := Nat.le_mul_of_pos_left _ h3
    unfold createAnalysis
    simp only [← hd, hx]
    have e1 : ∀ range, setupDimension s.cfg w range = setupDimension (relimit s P I S).cfg w range :=
      fun range => ht.setup_eq (by omega) (by omega)
    have e2 : ∀ range, setupDimension s.cfg h range = setupDimension (relimit s P I S).cfg h range :=
      fun range => ht.setup_eq (by omega) (by omega)
    simp only [e1, e2]
    rfl

theorem Twin.dim_eq (ht : Twin s P I S) {d : Detect} {f : List Fl} {length n stride dist range : ℕ}
    (h : 2 * range < length → Geom (relimit s P I S).cfg f length n stride dist range)
    (g : 2 * range < length → Geom s.cfg f length n stride dist range) (hz : d = .zerox → range = 1)
    {result : Option (Buf Fl)} {bound : Option (ℕ × ℕ)} (hd : DimGood length range result bound) :
    detectDim s d f length n stride dist range result bound =
      detectDim (relimit s P I S) d f length n stride dist range result bound := by
  unfold DimGood at hd
  split at hd
  · rename_i hr
    obtain ⟨r, rfl, hlen, rfl⟩ := hd
    unfold detectDim
    simp only
    refine congrArg (M.bind _) ?_
    funext _ w
    have hn : ∀ w : World, need (some (range, length - range)) w = some ((range, length - range), w) := fun _ => rfl
    rw [M.bind_some (hn w), M.bind_some (hn w), ht.detect_eq (h hr) (g hr) hz hlen]
  · subst hd
    rfl

theorem Twin.after_eq (ht : Twin s P I S) {a : Analysis} (hg : Good (relimit s P I S) a) (fb : Buf Fl) {f : List Fl}
    (hf : f.length = a.width * a.height) : afterTransform s a fb f = afterTransform (relimit s P I S) a fb f := by
  have hg' := ht.good hg
  unfold afterTransform
  simp only
  rw [ht.dim_eq (fun hr => hg.geomX ht.build.wf hf hr) (fun hr => hg'.geomX ht.wf hf hr) hg.zerox hg.x,
    ht.dim_eq (fun hr => hg.geomY ht.build.wf hf hr) (fun hr => hg'.geomY ht.wf hf hr) hg.zerox hg.y]
  rfl

theorem Twin.analyze_eq (ht : Twin s P I S) {a : Analysis} (hg : Good (relimit s P I S) a) {image : Option (List Fl)} {w : World}
    (hlive : ∀ b ∈ a.blocks, b ∈ w.live) (hi : ∀ im, image = some im → a.width * a.height ≤ im.length) :
    analyzeImage s (some a) image w = analyzeImage (relimit s P I S) (some a) image w := by
  have hg' := ht.good hg
  cases image with
  | none => rfl
  | some im =>
    have hi := hi im rfl
    obtain ⟨fb, hfb, hlen⟩ := hg.f
    obtain ⟨p, hp, hgood⟩ := hg.p
    by_cases hall : AllFinite im (a.width * a.height)
    · rw [analyzeImage_finite ht.wf hg' hi hall hfb hp hlive, analyzeImage_finite ht.build.wf hg hi hall hfb hp hlive,
        transform_relimit]
      have hfr : (frame (relimit s P I S) a im).length = a.width * a.height := by
        unfold frame; rw [List.length_map, List.length_take]; omega
      obtain ⟨q, h1, h2⟩ := transform_temp _ hgood hfr
      have h3 := h2 w (fun b hb => hlive b (by simp [Analysis.blocks, hp, hb]))
      rw [transform_relimit] at h3
      rw [show frame s a im = frame (relimit s P I S) a im from rfl, M.bind_some h3, M.bind_some h3, ht.after_eq hg fb (h1 _)]
    · obtain ⟨l1, l2⟩ := Good.live hlive hfb
      unfold analyzeImage
      dsimp only
      rw [M.bind_some (touch_live l1), M.bind_some (touch_live l1), hfb, M.bind_some (a := fb) (w' := w) rfl,
        M.bind_some (a := fb) (w' := w) rfl, M.bind_some (touch_live l2), M.bind_some (touch_live l2)]
      have hpi := ht.wf.pixel_idx
      have hpj : P ≤ I := ht.build.wf.pixel_idx
      have hpx : a.width * a.height ≤ P := hg.pixels
      have hle := ht.le
      rw [hg'.total ht.wf, hg.total ht.build.wf, if_neg (by omega), if_neg (by show ¬ I < _; omega)]
      obtain ⟨f', e1, e2⟩ := loadImage_bad s.cfg hi hlen hall
      have e1' : loadImage (relimit s P I S).cfg im (a.width * a.height) 0 fb.data = some (false, f') := by
        rw [← e1]
        have : ∀ todo i f, loadImage (relimit s P I S).cfg im todo i f = loadImage s.cfg im todo i f := by
          intro todo
          induction todo with
          | zero => intro _ _; rfl
          | succ n ih => intro i f; unfold loadImage; simp only [ih]; rfl
        exact this _ _ _
      rw [e1, e1', M.bind_some (M.lift_apply_some _ w), M.bind_some (M.lift_apply_some _ w)]
      simp only [Bool.not_false, if_true]

theorem Twin.results_eq (ht : Twin s P I S) {a : Analysis} (hg : Good (relimit s P I S) a) (ptr : Ptrs) {w : World}
    (hlive : ∀ b ∈ a.blocks, b ∈ w.live) :
    analysisResults s (some a) ptr w = analysisResults (relimit s P I S) (some a) ptr w := by
  rw [analysisResults_eq ht.build hg hlive, analysisResults_eq' ht.wf (ht.good hg)
    (ht.build.results _ (le_trans hg.sideX sideMax_le) hg.width_le)
    (ht.build.results _ (le_trans hg.sideY sideMax_le) hg.height_le) hlive]
  rfl

theorem Twin.step_eq (ht : Twin s P I S) {a : Analysis} (hg : Good (relimit s P I S) a) {c : Call} (hc : Legal a c) :
    step s a c = step (relimit s P I S) a c := by
  obtain ⟨op, w⟩ := c
  cases op with
  | analyze image =>
    unfold step
    simp only
    rw [ht.analyze_eq hg (Legal.live hc) (by rintro im rfl; exact hc.2.2)]
  | results ptr =>
    unfold step
    simp only
    rw [ht.results_eq hg ptr (Legal.live hc)]

theorem Twin.valid {p : Option Params} : ValidParams? (relimit s P I S).cfg p ↔ ValidParams? s.cfg p :=
  ⟨fun h q hq => ⟨(h q hq).range_pos, (h q hq).range_le, (h q hq).threshold, (h q hq).filter⟩,
    fun h q hq => ⟨(h q hq).range_pos, (h q hq).range_le, (h q hq).threshold, (h q hq).filter⟩⟩

theorem Twin.reach (ht : Twin s P I S) {m : Option Method} (hm : ValidMethod? m) {p : Option Params} (hp : ValidParams? s.cfg p)
    {w h : ℕ} (hP : w * h ≤ P) {ev : List (Call × Obs)} {a : Analysis} :
    Reach s m w h p ev a ↔ Reach (relimit s P I S) m w h p ev a := by
  constructor
  · intro hr
    induction hr with
    | create hwd hc => exact .create hwd (by rw [← ht.create_eq m hP p]; exact hc)
    | call _ hl hs ih => exact .call ih hl (by rw [← ht.step_eq (reach_inv ht.build hm (Twin.valid.mpr hp) ih).good hl]; exact hs)
  · intro hr
    induction hr with
    | create hwd hc => exact .create hwd (by rw [ht.create_eq m hP p]; exact hc)
    | call hr hl hs ih =>
      exact .call ih hl (by rw [ht.step_eq (reach_inv ht.build hm (Twin.valid.mpr hp) hr).good hl]; exact hs)

theorem Twin.loop_eq (ht : Twin s P I S) {image : List Fl} {W H : ℕ} (todo : ℕ) : ∀ (i : ℕ) (a : Analysis) (w : World),
    Good (relimit s P I S) a → a.width = W → a.height = H → (∀ b ∈ a.blocks, b ∈ w.live) → (i + todo) * (W * H) ≤ image.length →
    analyzeLoop s image W H todo i a w = analyzeLoop (relimit s P I S) image W H todo i a w ∧
      ∃ e a' w', analyzeLoop (relimit s P I S) image W H todo i a w = some ((e, a'), w') ∧ Good (relimit s P I S) a' ∧
        ∀ b ∈ a'.blocks, b ∈ w'.live := by
  induction todo with
  | zero => intro i a w hg _ _ hl _; exact ⟨rfl, _, _, _, rfl, hg, hl⟩
  | succ todo ih =>
    intro i a w hg hW hH hl hlen
    unfold analyzeLoop
    have hsz : s.cfg.sz (s.cfg.sz (i * W) * H) ≤ i * (W * H) := by
      refine le_trans (Nat.mod_le _ _) ?_
      rw [← Nat.mul_assoc]
      exact Nat.mul_le_mul_right _ (Nat.mod_le _ _)
    have hge : a.width * a.height ≤ (image.drop (s.cfg.sz (s.cfg.sz (i * W) * H))).length := by
      rw [List.length_drop, hW, hH]
      have : (i + (todo + 1)) * (W * H) = i * (W * H) + todo * (W * H) + W * H := by ring
      omega
    have himg : ∀ im, some (image.drop (s.cfg.sz (s.cfg.sz (i * W) * H))) = some im → a.width * a.height ≤ im.length := by
      intro im h; cases h; exact hge
    have e1 := ht.analyze_eq hg hl himg
    obtain ⟨e, a', w', h1, h2, j, k, rfl⟩ := analyze_cases ht.build.wf hg hl himg
    have hgood := h2.good hg
    have hsame := h2.same
    rw [show (relimit s P I S).cfg.sz ((relimit s P I S).cfg.sz (i * W) * H) = s.cfg.sz (s.cfg.sz (i * W) * H) from rfl,
      M.bind_some (e1.trans h1), M.bind_some h1]
    simp only
    have hneed : ∀ w : World, need (some a') w = some (a', w) := fun _ => rfl
    rw [M.bind_some (hneed _), M.bind_some (hneed _)]
    have hl' : ∀ b ∈ a'.blocks, b ∈ (w.skip j k).live := fun b hb => hl b (by rw [← hgood.2]; exact hb)
    by_cases he : e ≠ 0
    · rw [if_pos he, if_pos he]
      exact ⟨rfl, _, _, _, rfl, hgood.1, hl'⟩
    · rw [if_neg he, if_neg he]
      exact ih (i + 1) a' _ hgood.1 (by rw [hsame.width, hW]) (by rw [hsame.height, hH]) hl'
        (by rw [show i + 1 + todo = i + (todo + 1) by omega]; exact hlen)

theorem Twin.resdetect_eq (ht : Twin s P I S) {image : Option (List Fl)} {n W H : ℕ} (hP : W * H ≤ P) {ptr : Ptrs}
    {m : Option Method} (hm : ValidMethod? m) {p : Option Params} (hp : ValidParams? s.cfg p) {w : World} (hw : w.WF)
    (himg : ∀ im, image = some im → n * (W * H) ≤ im.length) :
    resdetect s image n W H ptr m p w = resdetect (relimit s P I S) image n W H ptr m p w := by
  unfold resdetect
  split
  · rfl
  · cases image with
    | none => rfl
    | some im =>
      simp only
      split
      · rfl
      · rw [ht.create_eq m hP p]
        obtain ⟨⟨oa, e⟩, w2, L', e1, hrel, q⟩ := createAnalysis_tri (F := True) (L := []) ht.build hm (Twin.valid.mpr hp) (w := W) (h := H)
          (fun _ => trivial) w w (Rel.init hw (fun _ _ => trivial))
        rw [M.bind_some e1, M.bind_some e1]
        cases oa with
        | none => rfl
        | some a =>
          simp only
          have hf : Fresh (relimit s P I S) m W H p a := (createAnalysis_good ht.build hm (Twin.valid.mpr hp) hw e1).1
          have hl : ∀ b ∈ a.blocks, b ∈ w2.live := by
            cases q with
            | ok a L' hf hperm _ _ _ => exact fun b hb => (hrel.live b).mpr (Or.inr (hperm.mem_iff.mpr (List.mem_append_left _ hb)))
          obtain ⟨k1, e', a', w', k2, k3, k4⟩ := ht.loop_eq n 0 a w2 hf.good hf.width hf.height hl (by simpa using himg im rfl)
          rw [M.bind_some (k1.trans k2), M.bind_some k2]
          simp only
          split
          · rw [M.bind_apply, M.bind_apply, ht.results_eq k3 ptr k4]
          · rfl

end

end Verif
