import Verif.Spec.Views
import Verif.Proofs.Numpy
import Verif.Proofs.Profile

/-! C85: numpy arrays and PIL images. -/

namespace Verif.Props

open Spec

variable {s : Sys} {io : Io} {m : Option Method} {d : PyDict} {W H : ℕ} {frames : List (List Fl)} {w w' : World}

theorem pyOpen_default {fn : List UInt8} {ft : Option (List UInt8)} : pyOpen s io fn ft none true = resdetOpenImage s io (some fn) (pyText ft) true true true := rfl

/-- **C85** Reading a file frame by frame, as numpy arrays or as PIL images, and analysing every frame gives what `resdetect_file` gives for the
file, an exception included, when memory suffices.  Nothing stays allocated or open. -/
theorem C85_frames (hs : Build s) (hm : ValidMethod? m) (hd : d.unknown = false) {fn : List UInt8} {ft : Option (List UInt8)}
    (hy : Presents s io (resdetOpenImage s io (some fn) (pyText ft) true true true) 0 W H frames) {fuel fuel' : ℕ} (hfuel : frames.length < fuel)
    (hfuel' : frames.length < fuel') (hlen : frames.length ≤ s.cfg.sizeMax) (hw : w.WF) (hw' : w'.WF) (hpl : Plenty w) (hpl' : Plenty w')
    (hsc : ¬ HugeScores s W H) :
    ∃ r w1 w2 w3, pyResdetectFile s io fuel (some fn) (pyText ft) m d w' = some (r, w1) ∧ numpyDetect s io fuel' fn ft none m d w = some (r, w2) ∧
      pilDetect s io fuel' fn ft none m d w = some (r, w3) ∧ Unchanged w w2 ∧ Unchanged w w3 := by
  obtain ⟨r, w1, h1, o1⟩ := pyFile_outcome hs hm hd hy hfuel hlen hw' hpl' hsc
  obtain ⟨rd, Ok, G, hx⟩ := hy.reveals.fount
  rw [← pyOpen_default] at hx
  obtain ⟨r2, w2, _, _, h2, g2, rfl, rfl, o2⟩ := (ndDetect_act (L := []) (S := []) (convert := some) (fun f => ⟨_, rfl, rfl⟩) hs hm hd hx hfuel' hlen (no_huge hsc)).run
    (Own.init hw (plenty_false hpl))
  obtain ⟨r3, w3, _, _, h3, g3, rfl, rfl, o3⟩ := (ndDetect_act (L := []) (S := []) (convert := fun x => (pilFrom x).map pilArray) (fun f => ⟨_, rfl, rfl⟩) hs hm hd hx
    hfuel' hlen (no_huge hsc)).run (Own.init hw (plenty_false hpl))
  obtain rfl := o1.unique hs hm (pyEff_valid hs) o2
  obtain rfl := o1.unique hs hm (pyEff_valid hs) o3
  exact ⟨r, w1, w2, w3, h1, h2, h3, g2.same, g3.same⟩

theorem Demo.movie_presents : Presents Demo.sys Demo.io (resdetOpenImage Demo.sys Demo.io (some (cs "a.y4m")) (pyText none) true true true) 0 2 1
    (lumas 8 [[0, 255], [255, 0]]) :=
  .native (.y4m rfl Demo.uses_y4m) ((C48_plays Demo.y4m_frames (k := 0)).1 (by decide) trivial)

theorem Demo.movie_scores : ¬ HugeScores Demo.sys 2 1 := by rintro ⟨n, rfl | rfl, h⟩ <;> revert h <;> decide +kernel

theorem Demo.picture_scores : ¬ HugeScores Demo.sys 4 2 := by rintro ⟨n, rfl | rfl, h⟩ <;> revert h <;> decide +kernel

/-- A stream of two frames. -/
example : Presents Demo.sys Demo.io (resdetOpenImage Demo.sys Demo.io (some (cs "a.y4m")) (pyText none) true true true) 0 2 1
      (lumas 8 [[0, 255], [255, 0]]) ∧ Build Demo.sys ∧ Demo.dict.unknown = false ∧ Plenty Demo.w0 ∧ ¬ HugeScores Demo.sys 2 1 ∧
    (pilDetect Demo.sys Demo.io 3 (cs "a.y4m") none none none Demo.dict Demo.w0).map (fun r => (r.1, r.2.live, r.2.files)) =
      some (.ok ([⟨2, .fin true (-1)⟩], [⟨1, .fin true (-1)⟩]), [], []) :=
  ⟨Demo.movie_presents, Demo.sys_build, rfl, fun _ => rfl, Demo.movie_scores, by decide +kernel⟩

/-- **C85** A frame read as a numpy array and given to `resdetect` is analysed as the image it is. -/
theorem C85_frame (hs : Build s) (hm : ValidMethod? m) (hd : d.unknown = false) {fn : List UInt8} {ft : Option (List UInt8)} {f : List Fl}
    (hy : Presents s io (resdetOpenImage s io (some fn) (pyText ft) true true true) 0 W H [f]) {fuel : ℕ} (hfuel : 1 < fuel)
    (hW : W ≤ s.cfg.sizeMax) (hH : H ≤ s.cfg.sizeMax) (h1 : 1 ≤ s.cfg.sizeMax) (hf : f.length = W * H) (hfs : f.length ≤ s.cfg.sizeMax)
    (hw : w.WF) (hw' : w'.WF) (hpl : Plenty w) (hpl' : Plenty w') (hsc : ¬ HugeScores s W H) :
    ∃ x r w1 w2 w3, ndFirst s io fn ft none w = some (.ok (some x), w1) ∧ Unchanged w w1 ∧ ndResdetect s x m d w' = some (r, w2) ∧
      pyResdetectFile s io fuel (some fn) (pyText ft) m d w = some (r, w3) := by
  obtain ⟨r, w3, k1, o1⟩ := pyFile_outcome (fuel := fuel) hs hm hd hy hfuel h1 hw hpl hsc
  obtain ⟨rd, Ok, G, hx⟩ := hy.reveals.fount
  rw [← pyOpen_default] at hx
  obtain ⟨_, w1, _, _, k2, g2, rfl, rfl, rfl⟩ := (ndFirst_act (L := []) (S := []) hx).run (Own.init hw (plenty_false hpl))
  obtain ⟨r2, w2, k3, o2, _⟩ := pyResdetect_outcome hs hm hd (n := 1) (by decide) h1 hW hH hfs (by rw [one_mul]; exact le_of_eq hf.symm) hw' hpl' hsc
  have hfr : framesOf f W H 1 = [f] := by simp [framesOf, frameOf, List.range_one, ← hf]
  rw [hfr] at o2
  obtain rfl := o1.unique hs hm (pyEff_valid hs) o2
  exact ⟨_, r, w1, w2, w3, k2, g2.same, k3, k1⟩

/-- A file of one frame. -/
example : Presents Demo.sysN (Demo.disk Demo.file4 true) (resdetOpenImage Demo.sysN (Demo.disk Demo.file4 true) (some (cs "a.pgm")) (pyText none) true true true)
      0 4 1 [Demo.frame4] ∧ Build Demo.sysN ∧ Demo.frame4.length = 4 * 1 ∧ ¬ HugeScores Demo.sysN 4 1 ∧ Plenty Demo.w3 ∧ Demo.w3.WF :=
  ⟨Demo.file4_presents, Demo.row_suited.build, rfl, Demo.row_scores, fun _ => rfl, Demo.w3_wf⟩

theorem inOrder_eq {v : View} {n : ℕ} {base samples : List Fl} (hl : base.length = n * (W * H)) (h : InOrder v n H W samples)
    (hv : ∀ f y x, v.get [f, y, x] = base[(f * H + y) * W + x]?) : samples = base := by
  obtain ⟨h1, h2⟩ := h
  refine List.ext_getElem? fun i => ?_
  by_cases hi : i < n * (W * H)
  · have hWH : 0 < W * H := Nat.pos_of_ne_zero fun h => by rw [h, Nat.mul_zero] at hi; omega
    have hW : 0 < W := Nat.pos_of_ne_zero fun h => by rw [h] at hWH; simp at hWH
    have hH : 0 < H := Nat.pos_of_ne_zero fun h => by rw [h] at hWH; simp at hWH
    have e : i / W / H * H + i / W % H = i / W := Nat.div_add_mod' _ _
    have e2 : i / W * W + i % W = i := Nat.div_add_mod' _ _
    have := h2 (i / W / H) (by rw [Nat.div_div_eq_div_mul]; exact Nat.div_lt_of_lt_mul (by rw [Nat.mul_comm]; exact hi)) (i / W % H) (Nat.mod_lt _ hH) (i % W)
      (Nat.mod_lt _ hW)
    rw [hv, e, e2] at this
    exact this.symm
  · rw [List.getElem?_eq_none (by omega), List.getElem?_eq_none (by omega)]

theorem images_get {n : ℕ} {base : List Fl} (f y x : ℕ) : (View.images n H W base).get [f, y, x] = base[(f * H + y) * W + x]? := by
  have : (View.images n H W base).place [f, y, x] = ((f * H + y) * W + x : ℕ) := by
    simp [View.place, View.images]
    ring
  unfold View.get
  rw [this, if_pos (Int.natCast_nonneg _), Int.toNat_natCast]
  rfl

theorem rows_get {base : List Fl} (y x : ℕ) : (View.rows H W base).get [y, x] = base[y * W + x]? := by
  have : (View.rows H W base).place [y, x] = (y * W + x : ℕ) := by
    simp [View.place, View.rows]
  unfold View.get
  rw [this, if_pos (Int.natCast_nonneg _), Int.toNat_natCast]
  rfl

/-- **C85** `resdetect(a.T)` of a new array of images, rows and columns analyses the images in it. -/
theorem C85_transposed (hs : Build s) (hm : ValidMethod? m) (hd : d.unknown = false) {n : ℕ} {base samples : List Fl} (hl : base.length = n * (W * H))
    (ho : InOrder (View.images n H W base) n H W samples) (hn : n ≠ 0) (hns : n ≤ s.cfg.sizeMax) (hW : W ≤ s.cfg.sizeMax) (hH : H ≤ s.cfg.sizeMax)
    (hb : base.length ≤ s.cfg.sizeMax) (hw : w.WF) (hw' : w'.WF) (hpl : Plenty w) (hpl' : Plenty w') (hsc : ¬ HugeScores s W H) :
    ∃ r w1 w2, ndResdetect s (View.images n H W base).T.array m d w = some (r, w1) ∧ pyResdetect s (some samples) n W H m d w' = some (r, w2) ∧ Unchanged w w1 := by
  obtain rfl := inOrder_eq hl ho images_get
  obtain ⟨r, w1, h1, o1, u⟩ := pyResdetect_outcome hs hm hd hn hns hW hH hb (le_of_eq hl.symm) hw hpl hsc
  obtain ⟨r', w2, h2, o2, _⟩ := pyResdetect_outcome hs hm hd hn hns hW hH hb (le_of_eq hl.symm) hw' hpl' hsc
  obtain rfl := o1.unique hs hm (pyEff_valid hs) o2
  exact ⟨r, w1, w2, h1, h2, u⟩

/-- Two images of 2 by 2. -/
example : InOrder (View.images 2 2 2 Demo.image) 2 2 2 Demo.image ∧ Demo.image.length = 2 * (2 * 2) ∧ (View.images 2 2 2 Demo.image).T.array.shape = [2, 2, 2] :=
  ⟨⟨rfl, fun _ _ _ _ _ _ => images_get _ _ _⟩, rfl, rfl⟩

/-- **C85** The same of a new array of rows and columns. -/
theorem C85_transposed_rows (hs : Build s) (hm : ValidMethod? m) (hd : d.unknown = false) {base samples : List Fl} (hl : base.length = W * H)
    (hsl : samples.length = W * H) (ho : ∀ y < H, ∀ x < W, (View.rows H W base).get [y, x] = samples[y * W + x]?) (h1 : 1 ≤ s.cfg.sizeMax) (hW : W ≤ s.cfg.sizeMax)
    (hH : H ≤ s.cfg.sizeMax) (hb : base.length ≤ s.cfg.sizeMax) (hw : w.WF) (hw' : w'.WF) (hpl : Plenty w) (hpl' : Plenty w') (hsc : ¬ HugeScores s W H) :
    ∃ r w1 w2, ndResdetect s (View.rows H W base).T.array m d w = some (r, w1) ∧ pyResdetect s (some samples) 1 W H m d w' = some (r, w2) ∧ Unchanged w w1 := by
  have hl1 : base.length = 1 * (W * H) := by omega
  obtain rfl : samples = base := by
    refine inOrder_eq (v := View.images 1 H W base) hl1 ⟨by omega, fun f hf y hy x hx => ?_⟩ images_get
    obtain rfl : f = 0 := by omega
    rw [images_get, Nat.zero_mul, Nat.zero_add, ← rows_get, ho y hy x hx]
  obtain ⟨r, w1, k1, o1, u⟩ := pyResdetect_outcome hs hm hd (by decide) h1 hW hH hb (le_of_eq hl1.symm) hw hpl hsc
  obtain ⟨r', w2, k2, o2, _⟩ := pyResdetect_outcome hs hm hd (by decide) h1 hW hH hb (le_of_eq hl1.symm) hw' hpl' hsc
  obtain rfl := o1.unique hs hm (pyEff_valid hs) o2
  exact ⟨r, w1, w2, k1, k2, u⟩

/-- A picture of 4 by 2. -/
example : Demo.image.length = 4 * 2 ∧ (∀ y < 2, ∀ x < 4, (View.rows 2 4 Demo.image).get [y, x] = Demo.image[y * 4 + x]?) ∧ ¬ HugeScores Demo.sys 4 2 ∧
    (ndResdetect Demo.sys (View.rows 2 4 Demo.image).T.array none Demo.dict Demo.w0).map (fun r => (r.1, r.2.live)) = some (_root_.Verif.Demo.found, []) :=
  ⟨rfl, fun _ _ _ _ => rows_get _ _, Demo.picture_scores, by decide +kernel⟩

/-- **C85** fails: an array of rows and columns, as numpy has them, is taken for an image with width and height exchanged.  Unless they are
the same, the answer is not the one for the image, nor for any other of its size. -/
theorem C85_array_fails (hs : Build s) (hm : ValidMethod? m) (hd : d.unknown = false) {base samples : List Fl} (hl : base.length = W * H)
    (hsl : samples.length = W * H) (h1 : 1 ≤ s.cfg.sizeMax) (hW : W ≤ s.cfg.sizeMax)
    (hH : H ≤ s.cfg.sizeMax) (hb : base.length ≤ s.cfg.sizeMax) (hw : w.WF) (hw' : w'.WF) (hpl : Plenty w) (hpl' : Plenty w') (hsc : ¬ HugeScores s W H)
    (hne : W ≠ H) {l l' : List Res × List Res} {w1 w2 : World} (hr : ndResdetect s (View.rows H W base).array m d w = some (.ok l, w1))
    (hr' : pyResdetect s (some samples) 1 W H m d w' = some (.ok l', w2)) : l ≠ l' := by
  rintro rfl
  have hsc' : ¬ HugeScores s H W := fun ⟨n, h, h'⟩ => hsc ⟨n, h.symm, h'⟩
  obtain ⟨r, w3, k1, o1, _⟩ := pyResdetect_outcome (image := base) hs hm hd (by decide) h1 hH hW hb (by rw [hl, one_mul, Nat.mul_comm]) hw hpl hsc'
  obtain ⟨r', w4, k2, o2, _⟩ := pyResdetect_outcome (image := samples) hs hm hd (by decide) h1 hW hH (by omega) (by omega) hw' hpl' hsc
  have e1 : some (Raises.ok l, w1) = some (r, w3) := hr.symm.trans k1
  have e2 : some (Raises.ok l, w2) = some (r', w4) := hr'.symm.trans k2
  cases e1; cases e2
  exact hne (o1.apart hs hm hm (pyEff_valid hs) (pyEff_valid hs) o2).1.symm

/-- The picture of 4 by 2, given as 2 rows of 4. -/
example : ∃ l l' w1 w2, ndResdetect Demo.sys (View.rows 2 4 Demo.image).array none Demo.dict Demo.w0 = some (.ok l, w1) ∧
    pyResdetect Demo.sys (some Demo.image) 1 4 2 none Demo.dict Demo.w0 = some (.ok l', w2) := by
  have h1 : ((ndResdetect Demo.sys (View.rows 2 4 Demo.image).array none Demo.dict Demo.w0).map Prod.fst).any
    (fun r => match r with | .ok _ => true | _ => false) = true := by decide +kernel
  have h2 : ((pyResdetect Demo.sys (some Demo.image) 1 4 2 none Demo.dict Demo.w0).map Prod.fst).any
    (fun r => match r with | .ok _ => true | _ => false) = true := by decide +kernel
  cases e1 : ndResdetect Demo.sys (View.rows 2 4 Demo.image).array none Demo.dict Demo.w0 with
  | none => rw [e1] at h1; cases h1
  | some v =>
    obtain ⟨r, w1⟩ := v
    cases e2 : pyResdetect Demo.sys (some Demo.image) 1 4 2 none Demo.dict Demo.w0 with
    | none => rw [e2] at h2; cases h2
    | some v' =>
      obtain ⟨r', w2⟩ := v'
      rw [e1] at h1
      rw [e2] at h2
      cases r with
      | raised => cases h1
      | ok l =>
        cases r' with
        | raised => cases h2
        | ok l' => exact ⟨l, l', w1, w2, rfl, rfl⟩

theorem pil_frame_outcome (hs : Build s) (hm : ValidMethod? m) (hd : d.unknown = false) {f : List Fl} (hf : f.length = W * H) (h1 : 1 ≤ s.cfg.sizeMax)
    (hW : W ≤ s.cfg.sizeMax) (hH : H ≤ s.cfg.sizeMax) (hw : w.WF) (hpl : Plenty w) (hsc : ¬ HugeScores s W H) :
    ∃ r w1, pilResdetect s ⟨[⟨W, H, f⟩], 0⟩ m d w = some (r, w1) ∧ PyOutcome s m (pyEff s.cfg d) W H [f] r ∧ Unchanged w w1 := by
  obtain ⟨r, w1, _, _, h, ow, rfl, rfl, o⟩ := (pilResdetect_act (L := []) (S := []) hs hm hd (im := ⟨[⟨W, H, f⟩], 0⟩) (W := W) (H := H) (by simp)
    (by simp [hf]) hW hH (by simpa using h1) (no_huge hsc)).run (Own.init hw (plenty_false hpl))
  exact ⟨r, w1, h, o, ow.same⟩

/-- **C85** `resdetect` of a PIL image whose frames have one size analyses, from the frame it is at, all of them, as `resdetect` of their samples
one after the other. -/
theorem C85_pil (hs : Build s) (hm : ValidMethod? m) (hd : d.unknown = false) {im : PilImage} (ht : im.tell < im.frames.length)
    (hfs : ∀ f ∈ im.frames.drop im.tell, f.width = W ∧ f.height = H ∧ f.samples.length = W * H) (hW : W ≤ s.cfg.sizeMax) (hH : H ≤ s.cfg.sizeMax)
    (hlen : im.frames.length ≤ s.cfg.sizeMax) (hb : (im.frames.length - im.tell) * (W * H) ≤ s.cfg.sizeMax) (hw : w.WF) (hw' : w'.WF) (hpl : Plenty w)
    (hpl' : Plenty w') (hsc : ¬ HugeScores s W H) :
    ∃ r w1 w2, pilResdetect s im m d w = some (r, w1) ∧
      pyResdetect s (some ((im.frames.drop im.tell).map PilFrame.samples).flatten) (im.frames.length - im.tell : ℕ) W H m d w' = some (r, w2) ∧ Unchanged w w1 := by
  obtain ⟨r, w1, _, _, h1, ow, rfl, rfl, o1⟩ := (pilResdetect_act (L := []) (S := []) hs hm hd (im := im) (W := W) (H := H) ht hfs hW hH hlen (no_huge hsc)).run
    (Own.init hw (plenty_false hpl))
  have hall : ∀ f ∈ (im.frames.drop im.tell).map PilFrame.samples, f.length = W * H := by
    intro f hf
    obtain ⟨g, hg, rfl⟩ := List.mem_map.mp hf
    exact (hfs g hg).2.2
  have hcnt : ((im.frames.drop im.tell).map PilFrame.samples).length = im.frames.length - im.tell := by simp
  generalize (im.frames.drop im.tell).map PilFrame.samples = fs at *
  have hfl : fs.flatten.length = (im.frames.length - im.tell) * (W * H) := by
    rw [← hcnt]
    clear hcnt o1
    induction fs with
    | nil => simp
    | cons f fs ih =>
      rw [List.flatten_cons, List.length_append, ih (fun g hg => hall g (by simp [hg])), hall f (by simp), List.length_cons]
      ring
  obtain ⟨r', w2, h2, o2, _⟩ := pyResdetect_outcome (n := im.frames.length - im.tell) (image := fs.flatten) hs hm hd (by omega) (by omega) hW hH (by omega)
    (le_of_eq hfl.symm) hw' hpl' hsc
  have hfr : framesOf fs.flatten W H (im.frames.length - im.tell) = fs := by
    rw [← hcnt]
    exact framesOf_flatten (P := W * H) hall rfl (List.take_of_length_le (by rw [hfl, ← hcnt, Nat.mul_comm]))
  rw [hfr] at o2
  obtain rfl := o1.unique hs hm (pyEff_valid hs) o2
  exact ⟨r, w1, w2, h1, h2, ow.same⟩

/-- Two pages of 2 by 2. -/
example : (∀ f ∈ [(⟨2, 2, Demo.image.take 4⟩ : PilFrame), ⟨2, 2, Demo.image.drop 4⟩], f.width = 2 ∧ f.height = 2 ∧ f.samples.length = 2 * 2) ∧
    (pilResdetect Demo.sys ⟨[⟨2, 2, Demo.image.take 4⟩, ⟨2, 2, Demo.image.drop 4⟩], 0⟩ none Demo.dict Demo.w0).map (fun r => (r.1, r.2.live)) =
      (pyResdetect Demo.sys (some Demo.image) 2 2 2 none Demo.dict Demo.w0).map (fun r => (r.1, r.2.live)) ∧
    (pilResdetect Demo.sys ⟨[⟨2, 2, Demo.image.take 4⟩, ⟨2, 2, Demo.image.drop 4⟩], 0⟩ none Demo.dict Demo.w0).isSome :=
  ⟨by simp [Demo.image], by decide +kernel, by decide +kernel⟩

/-- **C85** fails: a frame read as a PIL image has width and height exchanged, and so has its analysis. -/
theorem C85_pil_frame_fails (hs : Build s) (hm : ValidMethod? m) (hd : d.unknown = false) {fn : List UInt8} {ft : Option (List UInt8)} {f : List Fl}
    (hy : Presents s io (resdetOpenImage s io (some fn) (pyText ft) true true true) 0 W H [f]) {fuel : ℕ} (hfuel : 1 < fuel)
    (hW : W ≤ s.cfg.sizeMax) (hH : H ≤ s.cfg.sizeMax) (h1 : 1 ≤ s.cfg.sizeMax) (hf : f.length = W * H)
    (hw : w.WF) (hw' : w'.WF) (hpl : Plenty w) (hpl' : Plenty w') (hsc : ¬ HugeScores s W H) (hne : W ≠ H) :
    ∃ x g w1, ndFirst s io fn ft none w = some (.ok (some x), w1) ∧ pilFrom x = some g ∧ g.width = H ∧ g.height = W ∧
      ∀ l l' w2 w3, pilResdetect s ⟨[g], 0⟩ m d w' = some (.ok l, w2) → pyResdetectFile s io fuel (some fn) (pyText ft) m d w = some (.ok l', w3) → l ≠ l' := by
  obtain ⟨r, w3, k1, o1⟩ := pyFile_outcome (fuel := fuel) hs hm hd hy hfuel h1 hw hpl hsc
  obtain ⟨rd, Ok, G, hx⟩ := hy.reveals.fount
  rw [← pyOpen_default] at hx
  obtain ⟨_, w1, _, _, k2, g2, rfl, rfl, rfl⟩ := (ndFirst_act (L := []) (S := []) hx).run (Own.init hw (plenty_false hpl))
  refine ⟨_, ⟨H, W, f⟩, w1, k2, rfl, rfl, rfl, ?_⟩
  rintro l l' w2 w4 h2 h3 rfl
  obtain ⟨r2, w5, k3, o2, _⟩ := pil_frame_outcome (W := H) (H := W) hs hm hd (by rw [hf, Nat.mul_comm]) h1 hH hW hw' hpl'
    (fun ⟨n, h, h'⟩ => hsc ⟨n, h.symm, h'⟩)
  rw [k1] at h3
  rw [k3] at h2
  cases h3; cases h2
  exact hne (o1.apart hs hm hm (pyEff_valid hs) (pyEff_valid hs) o2).1

/-- The stream of C85 has frames of 2 by 1; read as PIL images both are analysed, as 1 by 2. -/
example : (pilResdetect Demo.sys ⟨[⟨1, 2, Demo.image.take 2⟩], 0⟩ none Demo.dict Demo.w0).map (fun r => r.1) =
    some (.ok ([⟨1, .fin true (-1)⟩], [⟨2, .fin true (-1)⟩])) ∧
    Presents Demo.sysN (Demo.disk Demo.file4 true) (resdetOpenImage Demo.sysN (Demo.disk Demo.file4 true) (some (cs "a.pgm")) (pyText none) true true true)
      0 4 1 [Demo.frame4] :=
  ⟨by decide +kernel, Demo.file4_presents⟩

/-- **C85** fails: an array of images, rows and columns is taken for as many images as there are columns. -/
theorem C85_images_fails (hs : Build s) (hm : ValidMethod? m) (hd : d.unknown = false) {n : ℕ} {base samples : List Fl} (hl : base.length = n * (W * H))
    (hsl : samples.length = n * (W * H)) (hn : n ≠ 0) (hW0 : W ≠ 0) (hns : n ≤ s.cfg.sizeMax) (hW : W ≤ s.cfg.sizeMax)
    (hH : H ≤ s.cfg.sizeMax) (hb : base.length ≤ s.cfg.sizeMax) (hw : w.WF) (hw' : w'.WF) (hpl : Plenty w) (hpl' : Plenty w') (hsc : ¬ HugeScores s W H)
    (hsc' : ¬ HugeScores s n H) (hne : n ≠ W) {l l' : List Res × List Res} {w1 w2 : World}
    (hr : ndResdetect s (View.images n H W base).array m d w = some (.ok l, w1))
    (hr' : pyResdetect s (some samples) n W H m d w' = some (.ok l', w2)) : l ≠ l' := by
  rintro rfl
  obtain ⟨r, w3, k1, o1, _⟩ := pyResdetect_outcome (image := base) (n := W) hs hm hd hW0 hW hns hH hb (by rw [hl]; exact le_of_eq (by ring)) hw hpl hsc'
  obtain ⟨r', w4, k2, o2, _⟩ := pyResdetect_outcome (image := samples) hs hm hd hn hns hW hH (by omega) (by omega) hw' hpl' hsc
  have e1 : some (Raises.ok l, w1) = some (r, w3) := hr.symm.trans k1
  have e2 : some (Raises.ok l, w2) = some (r', w4) := hr'.symm.trans k2
  cases e1; cases e2
  exact hne (o1.apart hs hm hm (pyEff_valid hs) (pyEff_valid hs) o2).1

/-- Four images of 2 by 1 are taken for two of 4 by 1. -/
example : (ndResdetect Demo.sys (View.images 4 1 2 Demo.image).array none Demo.dict Demo.w0).isSome ∧
    (ndResdetect Demo.sys (View.images 4 1 2 Demo.image).array none Demo.dict Demo.w0).map Prod.fst =
      (pyResdetect Demo.sys (some Demo.image) 2 4 1 none Demo.dict Demo.w0).map Prod.fst ∧
    (pyResdetect Demo.sys (some Demo.image) 4 2 1 none Demo.dict Demo.w0).map Prod.fst = some (.ok ([⟨2, .fin true (-1)⟩], [⟨1, .fin true (-1)⟩])) :=
  ⟨by decide +kernel, by decide +kernel, by decide +kernel⟩

theorem resdetect_short {p : Option Params} (hs : Build s) (hm : ValidMethod? m) (hp : ValidParams? s.cfg p) {image : List Fl} {n : ℕ} (hn : n ≠ 0)
    (hx : expected s W H = RDEOK) (hf : ∀ x ∈ image, x.isfinite = true) (himg : image.length < W * H) (hw : w.WF) (hpl : Plenty w) (hsc : ¬ HugeScores s W H) :
    resdetect s (some image) n W H .all m p w = none := by
  obtain ⟨⟨oa, e⟩, w1, L', S', h1, ow, rfl, hc⟩ := (Act.ofTri (S := []) (createAnalysis_tri (F := False) (L := []) hs hm hp (w := W) (h := H)
    (fun h => no_huge hsc h.lines))).run (Own.init hw (plenty_false hpl))
  obtain ⟨a, rfl, hperm⟩ : ∃ a, oa = some a ∧ L'.Perm (a.blocks ++ []) := by
    unfold expected at hx
    cases hc with
    | zero h => rw [if_pos h] at hx; exact absurd hx (by decide)
    | toobig h1 h2 h3 =>
      rw [if_neg (by omega), if_pos] at hx
      · exact absurd hx (by decide)
      · rcases h3 with h3 | h3 | h3
        · unfold Fits at h3; omega
        · exact Or.inr (Or.inr (Or.inl h3))
        · exact Or.inr (Or.inr (Or.inr h3))
    | internal h1 h2 h3 h4 h5 h6 h7 =>
      rw [if_neg (by omega), if_neg (by unfold Fits at h3; omega), if_pos ⟨h6, h7⟩] at hx
      exact absurd hx (by decide)
    | nomem _ h _ => exact h.elim
    | ok a _ _ hperm _ _ _ => exact ⟨a, rfl, hperm⟩
  have hr : Reach s m W H p [] a := Reach.create hw h1
  have hg := (reach_inv hs hm hp hr).good
  obtain ⟨k, rfl⟩ := Nat.exists_eq_succ_of_ne_zero hn
  unfold resdetect
  rw [if_neg (by decide)]
  dsimp only
  rw [if_neg hn, M.bind_some h1]
  dsimp only
  refine M.bind_none ?_
  unfold analyzeLoop
  refine M.bind_none ?_
  have h0 : s.cfg.sz (s.cfg.sz (0 * W) * H) = 0 := by simp [Cfg.sz]
  rw [h0, List.drop_zero]
  exact analyze_short hs hm hp hr (fun b hb => (ow.live b).mpr (Or.inr (hperm.mem_iff.mpr (by simpa using hg.owned_blocks b hb)))) hf himg

/-- **C85** fails: where an array starts is not where its memory does.  Of an array with the rows backwards all is read from the last row on,
which is outside of its memory. -/
theorem C85_flip_fails (hs : Build s) (hm : ValidMethod? m) (hd : d.unknown = false) {base : List Fl} (hl : base.length = W * H) (hH2 : 2 ≤ H) (hW0 : 0 < W)
    (hf : ∀ x ∈ base, x.isfinite = true) (h1 : 1 ≤ s.cfg.sizeMax) (hW : W ≤ s.cfg.sizeMax) (hH : H ≤ s.cfg.sizeMax) (hx : expected s H W = RDEOK) (hw : w.WF)
    (hpl : Plenty w) (hsc : ¬ HugeScores s W H) : ndResdetect s (View.rows H W base).flip.array m d w = none := by
  obtain ⟨q, w1, k1, k2, ow⟩ := pyParameters_run hs hd hw hpl
  have hst : ((0 : ℕ) + ((H : ℤ) - 1) * W).toNat = (H - 1) * W := by
    have : ((0 : ℕ) + ((H : ℤ) - 1) * W) = (((H - 1) * W : ℕ) : ℤ) := by
      push_cast [Nat.cast_sub (show 1 ≤ H by omega)]
      ring
    rw [this, Int.toNat_natCast]
  have hsh := resdetect_short (w := w1) (image := base.drop ((H - 1) * W)) (n := 1) (W := H) (H := W) hs hm (pyEff_valid hs (d := d)) (by decide) hx
    (fun x hx => hf x (List.mem_of_mem_drop hx)) (by
      rw [List.length_drop, hl, Nat.sub_mul, Nat.one_mul, Nat.mul_comm W H]
      have : W ≤ H * W := Nat.le_mul_of_pos_left _ (by omega)
      have : 2 * W ≤ H * W := Nat.mul_le_mul_right _ hH2
      omega) ow.wf (plenty_own ow) (fun ⟨n, h, h'⟩ => hsc ⟨n, h.symm, h'⟩)
  show pyResdetect s (some (base.drop ((0 : ℕ) + ((H : ℤ) - 1) * W).toNat)) (1 : ℕ) H W m d w = none
  unfold pyResdetect
  rw [hst, M.bind_some k1]
  simp only
  rw [k2, pySize_of_le hW, pySize_of_le hH, pySize_of_le h1]
  exact M.bind_none hsh

example : (∀ x ∈ Demo.image, x.isfinite = true) ∧ expected Demo.sys 2 4 = RDEOK ∧
    (View.rows 2 4 Demo.image).flip.array.memory = Demo.image.drop 4 ∧ ∀ x < 4, (View.rows 2 4 Demo.image).flip.get [1, x] = Demo.image[x]? :=
  ⟨by decide +kernel, by decide +kernel, by decide +kernel, by decide +kernel⟩

theorem pilLoop_append (fs gs : List PilFrame) (oa : Option Analysis) : pilLoop s (fs ++ gs) oa = (do
    let (r, a) ← pilLoop s fs oa
    match r with
    | .raised e => return (.raised e, a)
    | .ok _ => pilLoop s gs a) := by
  induction fs generalizing oa with
  | nil => rfl
  | cons f fs ih =>
    simp only [List.cons_append, pilLoop]
    rw [bind_assoc]
    refine congrArg (fun k => ndAnalyze s oa (pilArray f) >>= k) ?_
    funext ⟨r, a⟩
    cases r with
    | raised e => simp
    | ok _ => exact ih a

/-- **C85** fails: the size of the other frames of a PIL image is not looked at.  If one is smaller, memory outside of it is read. -/
theorem C85_pages_fails (hs : Build s) (hm : ValidMethod? m) (hd : d.unknown = false) {im : PilImage} {pre rest : List PilFrame} {g : PilFrame}
    (hfr : im.frames.drop im.tell = pre ++ g :: rest) (hne : pre ≠ [])
    (hfs : ∀ f ∈ pre, f.width = W ∧ f.height = H ∧ f.samples.length = W * H) (hfin : frameError W H (pre.map PilFrame.samples) = RDEOK)
    (hg : g.samples.length < W * H) (hgf : ∀ x ∈ g.samples, x.isfinite = true) (hW : W ≤ s.cfg.sizeMax) (hH : H ≤ s.cfg.sizeMax)
    (hx : expected s W H = RDEOK) (hw : w.WF) (hpl : Plenty w) (hsc : ¬ HugeScores s W H) : pilResdetect s im m d w = none := by
  have ht : im.tell < im.frames.length := by
    by_contra h
    rw [List.drop_eq_nil_of_le (by omega)] at hfr
    simp at hfr
  obtain ⟨f0, pre', rfl⟩ := List.exists_cons_of_ne_nil hne
  have h0 : im.frames[im.tell]? = some f0 := by
    have := congrArg List.head? hfr
    simpa using this
  unfold pilResdetect
  rw [h0]
  simp only
  obtain ⟨e1, e2, _⟩ := hfs f0 (by simp)
  rw [e1, e2, hfr]
  obtain ⟨_, w1, _, _, h1, ow, rfl, ⟨h, _, _⟩ | ⟨_, a, rfl, ha, rfl⟩⟩ := (pyAnalysis_act (L := []) (S := []) (d := d) hs hm hd hW hH (no_huge hsc)).run
    (Own.init hw (plenty_false hpl))
  · exact absurd hx h
  rw [M.bind_some h1]
  simp only
  obtain ⟨_, w2, _, _, h2, ow2, rfl, rfl, e, ev1, a', rfl, hf⟩ := (pilLoop_act (L := a.blocks ++ []) (S := []) hs (fun _ h => h) (fun f hf => (hfs f hf).2.2) ha
    (no_huge hsc)).run ow
  have hlo := hf.loop
  rw [List.nil_append] at hlo
  have he : e = RDEOK := by
    rcases fed_code hs hm (pyEff_valid hs) hlo.reach hf.fed with h | h
    · exact absurd h hf.error
    · rw [h, hfin]
  subst he
  refine M.bind_none ?_
  rw [pilLoop_append, M.bind_some h2]
  simp only [if_true, pilLoop]
  refine M.bind_none ?_
  unfold ndAnalyze pyAnalyze
  exact M.bind_none (analyze_short hs hm (pyEff_valid hs) hlo.reach (fun b hb => (ow2.live b).mpr (Or.inr (hlo.blocks b (hlo.good.owned_blocks b hb)))) hgf hg)

/-- A page of 4 by 2 and one of 2 by 2. -/
example : frameError 4 2 [Demo.image] = RDEOK ∧ expected Demo.sys 4 2 = RDEOK ∧ (Demo.image.take 4).length < 4 * 2 ∧
    pilResdetect Demo.sys ⟨[⟨4, 2, Demo.image⟩, ⟨2, 2, Demo.image.take 4⟩], 0⟩ none Demo.dict Demo.w0 = none :=
  ⟨by decide +kernel, by decide +kernel, by decide +kernel, by decide +kernel⟩

end Verif.Props
