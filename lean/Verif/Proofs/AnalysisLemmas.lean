import Verif.Spec.Basic
import Verif.Proofs.MethodLemmas
import Verif.Proofs.KissSafe

/-! The invariant of analysis objects, and `resdet_analyze_image`. -/

namespace Verif

open Spec

/-- A usable plan. -/
inductive PlanGood (c : Cfg) (w h : ℕ) : Plan → Prop where
  | fftw (b q : ℕ) : c.backend = .fftw → PlanGood c w h (.fftw b (some q) w h)
  | kiss (p : KissPlan) (g : KissGood c p w h) : c.backend = .kiss → PlanGood c w h (.kiss p)

/-- The blocks a plan owns. -/
def Plan.blocks : Plan → List ℕ
  | .fftw b q _ _ => [b] ++ q.toList
  | .kiss p => p.blocks

theorem transform_temp (s : Sys) {w h : ℕ} {p : Plan} (hp : PlanGood s.cfg w h p) {f : List Fl} (hf : f.length = w * h) :
    Temp p.blocks (transform s p f) (fun r => r.length = w * h) := by
  cases hp with
  | fftw b q =>
    unfold transform
    refine Temp.bind (Temp.touch (by simp [Plan.blocks])) (fun _ _ => ?_)
    refine Temp.bind (Temp.need (P := fun x => x = q) rfl rfl) ?_
    rintro _ rfl
    refine Temp.bind (Temp.touch (by simp [Plan.blocks])) (fun _ _ => ?_)
    exact Temp.pure (by rw [s.env.fftw_length]; exact hf)
  | kiss p g => exact kissTransform_temp g hf

/-- One dimension of an analysis is set up correctly. -/
def DimGood (length range : ℕ) (result : Option (Buf Fl)) (bound : Option (ℕ × ℕ)) : Prop :=
  if 2 * range < length then
    ∃ r, result = some r ∧ r.data.length = length - 2 * range ∧ bound = some (range, length - range)
  else result = none

/-- The blocks an analysis owns. -/
def Analysis.blocks (a : Analysis) : List ℕ :=
  [a.block] ++ (a.xresult.map Buf.id).toList ++ (a.yresult.map Buf.id).toList ++ (a.p.map Plan.blocks).getD [] ++
    (a.f.map Buf.id).toList

/-- The invariant of analysis objects. -/
structure Good (s : Sys) (a : Analysis) : Prop where
  method : a.method ∈ methods
  width_pos : 0 < a.width
  height_pos : 0 < a.height
  pixels : a.width * a.height ≤ s.cfg.pixelMax
  bytes : a.width * a.height * s.cfg.szCoeff ≤ s.cfg.sizeMax
  sideX : a.width ≤ sideMax s.cfg
  sideY : a.height ≤ sideMax s.cfg
  f : ∃ fb, a.f = some fb ∧ fb.data.length = a.width * a.height
  p : ∃ p, a.p = some p ∧ PlanGood s.cfg a.width a.height p
  x : DimGood a.width a.params.range a.xresult a.xbound
  y : DimGood a.height a.params.range a.yresult a.ybound
  range_pos : 1 ≤ a.params.range
  zerox : a.method.func = .zerox → a.params.range = 1
  threshold : InUnit a.params.threshold
  filter : a.params.compressionFilter ≤ 31

/-- The scores of one dimension after a frame with table `g` of coefficients. -/
def updScores (s : Sys) (d : Detect) (g : ℕ → ℕ → Fl) (n range : ℕ) (data : List Fl) : List Fl :=
  data.mapIdx (fun k r => addScore s.cfg r (frameScore s d g n range (range + k)))

theorem tab_rows (f : List Fl) (w : ℕ) : tab f w 1 = rows f w := by
  funext y x; unfold tab rows; rw [Nat.mul_one]

theorem tab_cols (f : List Fl) (w : ℕ) : tab f 1 w = cols f w := by
  funext y x; unfold tab cols rows; rw [Nat.mul_one, Nat.add_comm]

theorem Good.geomX {s : Sys} (hs : s.cfg.WF) {a : Analysis} (hg : Good s a) {f : List Fl}
    (hf : f.length = a.width * a.height) (hr : 2 * a.params.range < a.width) :
    Geom s.cfg f a.width a.height a.width 1 a.params.range where
  inb := fun y x hy hx => by rw [hf]; exact index_row hy hx
  size := by rw [hf]; exact le_trans hg.pixels hs.pixel_le
  len_idx := le_trans (le_trans (Nat.le_mul_of_pos_right _ hg.height_pos) hg.pixels) hs.pixel_idx
  n_idx := le_trans (le_trans (Nat.le_mul_of_pos_left _ hg.width_pos) hg.pixels) hs.pixel_idx
  stor := by rw [Nat.mul_comm]; exact le_trans hg.pixels hs.pixel_stor
  room := hr
  range_pos := hg.range_pos
  n_pos := hg.height_pos
  dist_pos := Nat.one_pos

theorem Good.geomY {s : Sys} (hs : s.cfg.WF) {a : Analysis} (hg : Good s a) {f : List Fl}
    (hf : f.length = a.width * a.height) (hr : 2 * a.params.range < a.height) :
    Geom s.cfg f a.height a.width 1 a.width a.params.range where
  inb := fun y x hy hx => by rw [hf]; exact index_col hy hx
  size := by rw [hf]; exact le_trans hg.pixels hs.pixel_le
  len_idx := le_trans (le_trans (Nat.le_mul_of_pos_left _ hg.width_pos) hg.pixels) hs.pixel_idx
  n_idx := le_trans (le_trans (Nat.le_mul_of_pos_right _ hg.height_pos) hg.pixels) hs.pixel_idx
  stor := le_trans hg.pixels hs.pixel_stor
  room := hr
  range_pos := hg.range_pos
  n_pos := hg.width_pos
  dist_pos := hg.width_pos

/-- `calloc`, a defined computation, `free`. -/
theorem Temp.callocFree {α : Type} {L : List ℕ} {c : Cfg} {n size : ℕ} {P : α → Prop} {a : α} {m : M α} (h0 : P a)
    (hm : Temp [] m P) :
    Temp L (do
      match ← calloc c n size with
      | none => return a
      | some b =>
        let r ← m
        free (some b)
        return r) P := by
  by_cases hc : n * size ≤ c.sizeMax
  · have : calloc c n size = malloc := by funext w; unfold calloc; rw [if_pos hc]
    rw [this]
    exact Temp.mallocFree h0 hm
  · have : calloc c n size = fun w => some (none, w.skip 0 1) := by
      funext w; unfold calloc; rw [if_neg hc]; rfl
    rw [this]
    exact ⟨fun _ => (a, 0, 1), fun _ => h0, fun w _ => rfl⟩

/-- The outcome of a detection pass: scores updated, or (orig only) out of memory and unchanged. -/
def PassOk (s : Sys) (d : Detect) (g : ℕ → ℕ → Fl) (n range : ℕ) (data : List Fl) (b : ℕ × ℕ)
    (r : RDError × List Fl × (ℕ × ℕ)) : Prop :=
  r = (RDEOK, updScores s d g n range data, b) ∨ d = .orig ∧ r = (RDENOMEM, data, b)

theorem detect_temp {s : Sys} {d : Detect} {f : List Fl} {length n stride dist range : ℕ}
    (h : Geom s.cfg f length n stride dist range) (hz : d = .zerox → range = 1) {result : List Fl}
    (hlen : result.length = length - 2 * range) :
    Temp [] (detect s d f length n stride dist range result (range, length - range))
      (PassOk s d (tab f stride dist) n range result (range, length - range)) := by
  have hroom := h.room
  have hidx := h.len_idx
  unfold detect
  cases d with
  | sign =>
    refine Temp.bind (Temp.lift (P := fun r => r = updScores s .sign (tab f stride dist) n range result)
      (detectSign_eq s h hlen) rfl) ?_
    rintro _ rfl
    exact Temp.pure (Or.inl rfl)
  | mag =>
    refine Temp.bind (Temp.lift (P := fun r => r = updScores s .mag (tab f stride dist) n range result)
      (detectMag_eq s h hlen) rfl) ?_
    rintro _ rfl
    exact Temp.pure (Or.inl rfl)
  | zerox =>
    have := hz rfl
    subst this
    refine Temp.bind (Temp.lift (P := fun r => r = updScores s .zerox (tab f stride dist) n 1 result)
      (detectZerox_eq s h hlen) rfl) ?_
    rintro _ rfl
    exact Temp.pure (Or.inl rfl)
  | orig =>
    show Temp [] (detectOrig s.cfg f length n stride dist range result (range, length - range)) _
    have e1 : s.cfg.idx range = range := Cfg.idx_eq (by omega)
    have e2 : s.cfg.idx (range * 2) = range * 2 := Cfg.idx_eq (by omega)
    have e3 : s.cfg.szSub length range = length - range := Cfg.szSub_eq (by omega) (by
      have h1 := h.inb 0 (length - 1) h.n_pos (by omega)
      have h2 := h.size
      have h3 := h.dist_pos
      have h4 : length - 1 ≤ (length - 1) * dist := Nat.le_mul_of_pos_right _ h3
      omega)
    have e4 : s.cfg.idx (length - range) = length - range := Cfg.idx_eq (by omega)
    unfold detectOrig
    simp only [e1, e2, e3, e4]
    rw [if_neg (by omega)]
    have := Temp.callocFree (L := []) (c := s.cfg) (n := length) (size := s.cfg.szInter)
      (P := PassOk s .orig (tab f stride dist) n range result (range, length - range))
      (a := (RDENOMEM, result, (range, length - range)))
      (m := do
        let sum ← M.lift (origSums s.cfg f length n stride dist)
        let result ← M.lift (origLoop s.cfg f sum n stride dist range result range (length - range))
        return (RDEOK, result, (range, length - range)))
      (Or.inr ⟨rfl, rfl⟩)
      (by
        refine Temp.bind (Temp.lift (P := fun r => r = (List.range length).map (meanMag s.cfg (tab f stride dist) n))
          (origSums_eq h) rfl) ?_
        rintro _ rfl
        refine Temp.bind (Temp.lift (P := fun r => r = updScores s .orig (tab f stride dist) n range result)
          (origLoop_eq s h hlen) rfl) ?_
        rintro _ rfl
        exact Temp.pure (Or.inl rfl))
    simp only [bind_assoc, pure_bind] at this
    exact this

/-- All of the first `total` samples are finite. -/
def AllFinite (image : List Fl) (total : ℕ) : Prop := ∀ v ∈ image.take total, v.isfinite = true

theorem loadImage_ok (c : Cfg) {image : List Fl} {todo i : ℕ} {f : List Fl} (hi : i + todo ≤ image.length)
    (hf : i + todo ≤ f.length) :
    ((∀ v ∈ (image.drop i).take todo, v.isfinite = true) →
      loadImage c image todo i f =
        some (true, f.take i ++ ((image.drop i).take todo).map c.coeff.conv ++ f.drop (i + todo))) ∧
    ((∃ v ∈ (image.drop i).take todo, v.isfinite = false) →
      ∃ f', loadImage c image todo i f = some (false, f') ∧ f'.length = f.length) := by
  induction todo generalizing i f with
  | zero =>
    constructor
    · intro _
      simp [loadImage]
    · rintro ⟨v, hv, _⟩
      simp at hv
  | succ todo ih =>
    have hlt : i < image.length := by omega
    have hltf : i < f.length := by omega
    have hdrop : image.drop i = image[i] :: image.drop (i + 1) := List.drop_eq_getElem_cons hlt
    rw [hdrop, List.take_succ_cons]
    unfold loadImage
    rw [rd_eq hlt]
    simp only [Option.bind_eq_bind, Option.bind_some]
    by_cases hfin : image[i].isfinite = true
    · rw [if_pos hfin, wr_eq hltf, Option.bind_some]
      obtain ⟨h1, h2⟩ := ih (i := i + 1) (f := f.set i (c.coeff.conv image[i])) (by omega)
        (by rw [List.length_set]; omega)
      constructor
      · intro hall
        rw [h1 (fun v hv => hall v (List.mem_cons_of_mem _ hv))]
        congr 2
        have e1 : (f.set i (c.coeff.conv image[i])).take (i + 1) = f.take i ++ [c.coeff.conv image[i]] := by
          rw [List.take_add_one, List.take_set_of_le (le_refl i), List.getElem?_set_self hltf]
          rfl
        have e2 : (f.set i (c.coeff.conv image[i])).drop (i + 1 + todo) = f.drop (i + (todo + 1)) := by
          rw [List.drop_set_of_lt (by omega)]
          congr 1; omega
        rw [e1, e2]
        simp
      · rintro ⟨v, hv, hv'⟩
        rcases List.mem_cons.mp hv with rfl | hv
        · rw [hfin] at hv'; cases hv'
        · obtain ⟨f', e1, e2⟩ := h2 ⟨v, hv, hv'⟩
          exact ⟨f', e1, by rw [e2, List.length_set]⟩
    · rw [if_neg hfin]
      constructor
      · intro hall
        exact absurd (hall _ List.mem_cons_self) hfin
      · intro _
        exact ⟨f, rfl, rfl⟩

theorem loadImage_finite (c : Cfg) {image f : List Fl} {total : ℕ} (hi : total ≤ image.length) (hf : f.length = total)
    (hall : AllFinite image total) :
    loadImage c image total 0 f = some (true, (image.take total).map c.coeff.conv) := by
  have := (loadImage_ok c (image := image) (todo := total) (i := 0) (f := f) (by omega) (by omega)).1
    (by unfold AllFinite at hall; simpa using hall)
  rw [this]
  subst hf
  simp

theorem loadImage_bad (c : Cfg) {image f : List Fl} {total : ℕ} (hi : total ≤ image.length) (hf : f.length = total)
    (hall : ¬ AllFinite image total) :
    ∃ f', loadImage c image total 0 f = some (false, f') ∧ f'.length = f.length := by
  refine (loadImage_ok c (image := image) (todo := total) (i := 0) (f := f) (by omega) (by omega)).2 ?_
  unfold AllFinite at hall
  push Not at hall
  obtain ⟨v, hv, hv'⟩ := hall
  exact ⟨v, by simpa using hv, by simpa using hv'⟩

/-- The part of `analyzeImage` after the transform. -/
def afterTransform (s : Sys) (a : Analysis) (fb : Buf Fl) (f : List Fl) : M (RDError × Option Analysis) := do
  let c := s.cfg
  let a := { a with f := some { fb with data := f } }
  let (e, xr, xb) ← detectDim s a.method.func f a.width a.height a.width 1 a.params.range a.xresult a.xbound
  let a := { a with xresult := xr, xbound := xb }
  if e ≠ RDEOK then return (e, some a)
  else
    let (e, yr, yb) ← detectDim s a.method.func f a.height a.width 1 a.width a.params.range a.yresult a.ybound
    let a := { a with yresult := yr, ybound := yb }
    if e ≠ RDEOK then return (e, some a)
    else return (RDEOK, some { a with nimages := c.sz (a.nimages + 1) })

theorem Good.total {s : Sys} (hs : s.cfg.WF) {a : Analysis} (hg : Good s a) :
    s.cfg.sz (a.width * a.height) = a.width * a.height := Cfg.sz_eq (le_trans hg.pixels hs.pixel_le)

theorem Good.live {a : Analysis} {w : World} (h : ∀ b ∈ a.blocks, b ∈ w.live) {fb : Buf Fl} (hfb : a.f = some fb) :
    a.block ∈ w.live ∧ fb.id ∈ w.live :=
  ⟨h _ (by simp [Analysis.blocks]), h _ (by simp [Analysis.blocks, hfb])⟩

theorem touch_live {b : ℕ} {w : World} (h : b ∈ w.live) : touch b w = some ((), w) := by
  unfold touch; rw [if_pos h]

/-- The samples as coefficients, before the transform. -/
def frame (s : Sys) (a : Analysis) (image : List Fl) : List Fl :=
  (image.take (a.width * a.height)).map s.cfg.coeff.conv

theorem analyzeImage_finite {s : Sys} (hs : s.cfg.WF) {a : Analysis} (hg : Good s a) {image : List Fl}
    (hi : a.width * a.height ≤ image.length) (hall : AllFinite image (a.width * a.height)) {fb : Buf Fl}
    (hfb : a.f = some fb) {p : Plan} (hp : a.p = some p) {w : World} (hlive : ∀ b ∈ a.blocks, b ∈ w.live) :
    analyzeImage s (some a) (some image) w =
      (transform s p (frame s a image) >>= fun f => afterTransform s a fb f) w := by
  obtain ⟨fb', hfb', hlen⟩ := hg.f
  rw [hfb] at hfb'; cases hfb'
  obtain ⟨l1, l2⟩ := Good.live hlive hfb
  unfold analyzeImage
  dsimp only
  rw [M.bind_some (touch_live l1), hfb, M.bind_some (a := fb) (w' := w) rfl, M.bind_some (touch_live l2)]
  rw [hg.total hs, if_neg (by have := hg.pixels; have := hs.pixel_idx; omega),
    loadImage_finite s.cfg hi hlen hall, M.bind_some (M.lift_apply_some _ _)]
  simp only [Bool.not_true, Bool.false_eq_true, if_false]
  have hneed : need a.p w = some (p, w) := by rw [hp]; rfl
  rw [M.bind_some hneed]
  rfl

theorem analyzeImage_bad {s : Sys} (hs : s.cfg.WF) {a : Analysis} (hg : Good s a) {image : List Fl}
    (hi : a.width * a.height ≤ image.length) (hall : ¬ AllFinite image (a.width * a.height)) {fb : Buf Fl}
    (hfb : a.f = some fb) {w : World} (hlive : ∀ b ∈ a.blocks, b ∈ w.live) :
    ∃ f', f'.length = fb.data.length ∧ analyzeImage s (some a) (some image) w =
      some ((RDEINVAL, some { a with f := some { fb with data := f' } }), w) := by
  obtain ⟨fb', hfb', hlen⟩ := hg.f
  rw [hfb] at hfb'; cases hfb'
  obtain ⟨l1, l2⟩ := Good.live hlive hfb
  obtain ⟨f', e1, e2⟩ := loadImage_bad s.cfg hi hlen hall
  refine ⟨f', e2, ?_⟩
  unfold analyzeImage
  dsimp only
  rw [M.bind_some (touch_live l1), hfb, M.bind_some (a := fb) (w' := w) rfl, M.bind_some (touch_live l2)]
  rw [hg.total hs, if_neg (by have := hg.pixels; have := hs.pixel_idx; omega), e1,
    M.bind_some (M.lift_apply_some _ _)]
  rfl

/-- The scores of one dimension after a frame. -/
def updBuf (s : Sys) (d : Detect) (g : ℕ → ℕ → Fl) (n range : ℕ) (r : Option (Buf Fl)) : Option (Buf Fl) :=
  r.map (fun r => { r with data := updScores s d g n range r.data })

theorem detectDim_temp {s : Sys} {d : Detect} {f : List Fl} {length n stride dist range : ℕ}
    (h : 2 * range < length → Geom s.cfg f length n stride dist range) (hz : d = .zerox → range = 1)
    {result : Option (Buf Fl)} {bound : Option (ℕ × ℕ)} (hd : DimGood length range result bound) {L : List ℕ}
    (hL : ∀ r, result = some r → r.id ∈ L) :
    Temp L (detectDim s d f length n stride dist range result bound)
      (fun r => r = (RDEOK, updBuf s d (tab f stride dist) n range result, bound) ∨
        d = .orig ∧ result ≠ none ∧ r = (RDENOMEM, result, bound)) := by
  unfold DimGood at hd
  split at hd
  · rename_i hr
    obtain ⟨r, rfl, hlen, rfl⟩ := hd
    unfold detectDim
    refine Temp.bind (Temp.touch (hL r rfl)) (fun _ _ => ?_)
    refine Temp.bind (Temp.need (P := fun x => x = (range, length - range)) rfl rfl) ?_
    rintro _ rfl
    refine Temp.bind (Temp.weaken (detect_temp (h hr) hz hlen) (by simp)) ?_
    rintro ⟨e, data, b⟩ (h1 | ⟨hd, h1⟩)
    · cases h1
      exact Temp.pure (Or.inl rfl)
    · cases h1
      exact Temp.pure (Or.inr ⟨hd, by simp, rfl⟩)
  · subst hd
    exact Temp.pure (Or.inl rfl)

/-- `a` with the scores of a frame with spectrum `f` added in the width dimension only. -/
def addX (s : Sys) (a : Analysis) (fb : Buf Fl) (f : List Fl) : Analysis :=
  { a with
    f := some { fb with data := f }
    xresult := updBuf s a.method.func (rows f a.width) a.height a.params.range a.xresult }

/-- `a` after a frame with spectrum `f`. -/
def addFrame (s : Sys) (a : Analysis) (fb : Buf Fl) (f : List Fl) : Analysis :=
  { addX s a fb f with
    yresult := updBuf s a.method.func (cols f a.width) a.width a.params.range a.yresult
    nimages := s.cfg.sz (a.nimages + 1) }

/-- The outcomes of `resdet_analyze_image` once a frame is transformed. -/
inductive AfterOk (s : Sys) (a : Analysis) (fb : Buf Fl) (f : List Fl) : RDError × Option Analysis → Prop where
  | ok : AfterOk s a fb f (RDEOK, some (addFrame s a fb f))
  | nomemX : a.method.func = .orig → a.xresult ≠ none → AfterOk s a fb f (RDENOMEM, some { a with f := some { fb with data := f } })
  | nomemY : a.method.func = .orig → a.yresult ≠ none → AfterOk s a fb f (RDENOMEM, some (addX s a fb f))

theorem afterTransform_temp {s : Sys} (hs : s.cfg.WF) {a : Analysis} (hg : Good s a) {fb : Buf Fl} {f : List Fl}
    (hf : f.length = a.width * a.height) : Temp a.blocks (afterTransform s a fb f) (AfterOk s a fb f) := by
  unfold afterTransform
  simp only
  refine Temp.bind (detectDim_temp (fun hr => hg.geomX hs hf hr) hg.zerox hg.x ?_) ?_
  · intro r hr; simp [Analysis.blocks, hr]
  · rintro r (rfl | ⟨hd, hne, rfl⟩)
    · simp only [RDEOK, ne_eq, not_true_eq_false, if_false]
      refine Temp.bind (detectDim_temp (fun hr => hg.geomY hs hf hr) hg.zerox hg.y ?_) ?_
      · intro r hr; simp [Analysis.blocks, hr]
      · rintro r (rfl | ⟨hd, hne, rfl⟩)
        · simp only [RDEOK, not_true_eq_false, if_false]
          refine Temp.pure ?_
          rw [tab_rows, tab_cols]
          exact AfterOk.ok
        · simp only [RDENOMEM, one_ne_zero, not_false_eq_true, if_true]
          refine Temp.pure ?_
          rw [tab_rows]
          exact AfterOk.nomemY hd hne
    · simp only [RDENOMEM, RDEOK, ne_eq, one_ne_zero, not_false_eq_true, if_true]
      exact Temp.pure (AfterOk.nomemX hd hne)

theorem updBuf_dim {s : Sys} {d : Detect} {g : ℕ → ℕ → Fl} {n range length : ℕ} {r : Option (Buf Fl)}
    {b : Option (ℕ × ℕ)} (h : DimGood length range r b) : DimGood length range (updBuf s d g n range r) b := by
  unfold DimGood at *
  split
  · rename_i hr
    rw [if_pos hr] at h
    obtain ⟨r, rfl, h1, h2⟩ := h
    exact ⟨_, rfl, by simpa [updScores] using h1, h2⟩
  · rename_i hr
    rw [if_neg hr] at h
    subst h; rfl

theorem Good.setF {s : Sys} {a : Analysis} (hg : Good s a) {fb : Buf Fl} (hfb : fb.data.length = a.width * a.height) :
    Good s { a with f := some fb } :=
  { hg with f := ⟨fb, rfl, hfb⟩ }

theorem Good.addX {s : Sys} {a : Analysis} (hg : Good s a) {fb : Buf Fl} {f : List Fl}
    (hf : f.length = a.width * a.height) : Good s (addX s a fb f) :=
  { hg with
    f := ⟨_, rfl, hf⟩
    x := updBuf_dim hg.x }

theorem Good.addFrame {s : Sys} {a : Analysis} (hg : Good s a) {fb : Buf Fl} {f : List Fl}
    (hf : f.length = a.width * a.height) : Good s (addFrame s a fb f) :=
  { hg with
    f := ⟨_, rfl, hf⟩
    x := updBuf_dim hg.x
    y := updBuf_dim hg.y }

theorem updBuf_id {s : Sys} {d : Detect} {g : ℕ → ℕ → Fl} {n range : ℕ} {r : Option (Buf Fl)} :
    (updBuf s d g n range r).map Buf.id = r.map Buf.id := by
  cases r <;> rfl

theorem blocks_setF {a : Analysis} {fb : Buf Fl} (hfb : a.f = some fb) {f : List Fl} :
    Analysis.blocks { a with f := some { fb with data := f } } = a.blocks := by
  unfold Analysis.blocks; rw [hfb]; rfl

theorem blocks_addX {s : Sys} {a : Analysis} {fb : Buf Fl} (hfb : a.f = some fb) {f : List Fl} :
    (addX s a fb f).blocks = a.blocks := by
  unfold Analysis.blocks addX; rw [hfb, updBuf_id]; rfl

theorem blocks_addFrame {s : Sys} {a : Analysis} {fb : Buf Fl} (hfb : a.f = some fb) {f : List Fl} :
    (addFrame s a fb f).blocks = a.blocks := by
  unfold Analysis.blocks addFrame addX; rw [hfb, updBuf_id, updBuf_id]; rfl

end Verif
