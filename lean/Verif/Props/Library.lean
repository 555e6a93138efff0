import Verif.Props.Rounded
import Verif.Props.Wrappers

/-! # From pictures to the results of the library functions and of the bindings, and all formats (C83) -/

namespace Verif.Props

open Spec

variable {s : Sys} {io : Io} {fn ft : Option (List UInt8)} {ptr : Ptrs} {m : Option Method} {p : Option Params} {fuel : ℕ} {w : World} {W H : ℕ} {u B e : ℝ}
  {frames : List (List Fl)} {pics : List (ℕ → ℕ → ℝ)}

/-- **C15** `resdetect_file` on a file of any format the library reads, when no allocation fails. -/
theorem C15_readers (hs : Build s) (hm : ValidMethod? m) (hp : ValidParams? s.cfg p)
    (hy : Presents s io (resdetOpenImage s io fn ft true true true) 0 W H frames) (hrw : ptr.rw = true → ptr.cw = true)
    (hrh : ptr.rh = true → ptr.ch = true) (hfuel : frames.length < fuel) (hlen : frames.length ≤ s.cfg.sizeMax) (hw : w.WF)
    (hpl : Plenty w) (hsc : ¬ HugeScores s W H) :
    ∃ err out w', resdetectFile s io fuel fn ft ptr m p w = some ((err, out), w') ∧
      err = (if expected s W H ≠ RDEOK then expected s W H else if frameError W H frames ≠ RDEOK then frameError W H frames
        else if frames = [] then RDENOIMG else RDEOK) ∧
      (err = RDEOK → ∃ ev a, Returned s m W H p ev a (out.rw.map Buf.data) out.cw (out.rh.map Buf.data) out.ch ∧
        ev.map (fun x => x.2) = List.replicate frames.length (.analyzed RDEOK) ∧
        ev.map (fun x => x.1.op) = frames.map (fun f => Op.analyze (some f)) ∧ ∀ x ∈ ev, Plenty x.1.world) ∧
      Outputs ptr err out w w' ∧ w'.WF ∧ w.next ≤ w'.next ∧
      (∀ b, b ∈ w'.live ↔ b ∈ w.live ∨ out.rw.map Buf.id = some b ∨ out.rh.map Buf.id = some b) ∧ ∀ f, f ∈ w'.files ↔ f ∈ w.files := by
  obtain ⟨r, Ok, G, hx⟩ := hy.reveals.fount
  obtain ⟨err, out, w', h1, h2, _, h4, h5, h6, h7, h8⟩ := file_core (ptr := ptr) (fuel := fuel) hs hm hp hx
    (by
      rintro (h | h)
      · exact hsc ⟨W, Or.inl rfl, h⟩
      · exact hsc ⟨H, Or.inr rfl, h⟩) hrw hrh hfuel hlen hw (fun j hj => by rw [hpl j] at hj; cases hj)
  have h4 := h4 (fun h => h)
  rw [if_neg (show ¬ (RDEOK ≠ RDEOK) from fun h => h rfl)] at h4
  refine ⟨err, out, w', h1, h4, fun he => ?_, h6, h7, h8, h5 (Or.inr (Or.inr fun h => h))⟩
  obtain ⟨_, ev, a, g1, g2, g3, g4⟩ := h2 he
  exact ⟨ev, a, g1, g2, g3, g4 (fun h => h)⟩

/-- The lists asked for are handed out with their lengths, and they are what exact arithmetic gives for the pictures. -/
structure Delivers (s : Sys) (m : Option Method) (p : Option Params) (W H : ℕ) (d : ℝ) (pics : List (ℕ → ℕ → ℝ)) (ptr : Ptrs) (out : Out) : Prop where
  widths : ptr.rw = true → ∃ l, out.rw = some l ∧ out.cw = l.data.length ∧ WidthsOf s m p W H d pics l.data
  heights : ptr.rh = true → ∃ l, out.rh = some l ∧ out.ch = l.data.length ∧ HeightsOf s m p W H d pics l.data
  nothing : (ptr.rw = false → out.rw = none) ∧ (ptr.rh = false → out.rh = none)

theorem delivers {d : ℝ} {out : Out} {w' : World} (ho : Outputs ptr RDEOK out w w')
    (h1 : ∀ l, out.rw.map Buf.data = some l → WidthsOf s m p W H d pics l) (h2 : ∀ l, out.rh.map Buf.data = some l → HeightsOf s m p W H d pics l) :
    Delivers s m p W H d pics ptr out := by
  obtain ⟨a1, a2⟩ := ho.rw rfl
  obtain ⟨b1, b2⟩ := ho.rh rfl
  refine ⟨fun h => ?_, fun h => ?_, fun h => ?_, fun h => ?_⟩
  · obtain ⟨l, hl⟩ := Option.isSome_iff_exists.mp (a1.mpr h)
    rw [hl] at a2
    exact ⟨l, hl, a2, h1 _ (by rw [hl]; rfl)⟩
  · obtain ⟨l, hl⟩ := Option.isSome_iff_exists.mp (b1.mpr h)
    rw [hl] at b2
    exact ⟨l, hl, b2, h2 _ (by rw [hl]; rfl)⟩
  · cases hl : out.rw with
    | none => rfl
    | some l => rw [a1.mp (by rw [hl]; rfl)] at h; cases h
  · cases hl : out.rh with
    | none => rfl
    | some l => rw [b1.mp (by rw [hl]; rfl)] at h; cases h

/-- **C83** An analysis fed with frames that depict pictures returns what exact arithmetic gives for the pictures, whatever the order of the other
calls and however often results are asked for. -/
theorem C83_analysis (h : Suited s m p W H u B) {ev : List (Call × Obs)} {a : Analysis} {rw rh : Option (List Res)} {cw ch : ℕ}
    (hr : Returned s m W H p ev a rw cw rh ch) (hno : NoOom ev)
    (hf : (analysed ev).map (fun x => x.1.op) = frames.map (fun f => Op.analyze (some f))) (hplw : ∀ x ∈ analysed ev, Plenty x.1.world)
    (hpics : List.Forall₂ (Depicts B e W H) frames pics) (hexact : Exact s.cfg frames.length) (hlen : frames.length ≤ s.cfg.sizeMax) :
    (∀ l, rw = some l → WidthsOf s m p W H (totalError u B e W H) pics l) ∧ (∀ l, rh = some l → HeightsOf s m p W H (totalError u B e W H) pics l) :=
  history_means h hr hno hf hplw hpics hexact hlen

/-- **C83** `resdetect` on frames in memory that depict pictures succeeds and returns what exact arithmetic gives for the pictures. -/
theorem C83_resdetect (h : Suited s m p W H u B) (hsize : expected s W H = RDEOK) {n : ℕ} {image : List Fl} (himg : image.length ≤ s.cfg.sizeMax)
    (hlen : n * (W * H) ≤ image.length) (hn : n ≠ 0) (hrw : ptr.rw = true → ptr.cw = true) (hrh : ptr.rh = true → ptr.ch = true) (hw : w.WF)
    (hpl : Plenty w) (hsc : ¬ HugeScores s W H) (hpics : List.Forall₂ (Depicts B e W H) (framesOf image W H n) pics) (hexact : Exact s.cfg n) :
    ∃ out w', resdetect s (some image) n W H ptr m p w = some ((RDEOK, out), w') ∧ Delivers s m p W H (totalError u B e W H) pics ptr out := by
  have hs := h.build
  obtain ⟨hW, hH⟩ := expected_pos hsize
  obtain ⟨out, w', h1⟩ := C14_error (ptr := ptr) hs h.method h.params himg hlen hrw hrh hw hpl hsc
  rw [if_neg hn, if_neg (not_not.mpr hsize), depicts_finite hW hpics] at h1
  obtain ⟨ev, a, h2, _, h3, h4, h5⟩ := C14_resdetect_history hs h.method h.params himg hlen hw h1
  obtain ⟨e', out', w'', h6, h7⟩ := C16_resdetect_outputs hs h.method h.params (image := some image) (n := n) (w := W) (h := H)
    (by rintro _ h; cases h; exact ⟨himg, hlen⟩) ptr hw
  rw [h1] at h6
  cases h6
  have hfl : (framesOf image W H n).length = n := by simp [framesOf]
  have hns : n ≤ s.cfg.sizeMax := le_trans (Nat.le_mul_of_pos_right n (Nat.mul_pos hW hH)) (le_trans hlen himg)
  obtain ⟨E1, E2⟩ := returned_means h h2 (by rw [hfl]; exact h3) h4 (h5 hpl hsc) hpics (by rw [hfl]; exact hexact) (by rw [hfl]; exact hns)
  exact ⟨out, w', h1, delivers h7 E1 E2⟩

/-- **C83** `resdetect_file` on a file, of any format, whose frames depict pictures. -/
theorem C83_file (h : Suited s m p W H u B) (hsize : expected s W H = RDEOK) (hy : Presents s io (resdetOpenImage s io fn ft true true true) 0 W H frames)
    (hne : frames ≠ []) (hrw : ptr.rw = true → ptr.cw = true) (hrh : ptr.rh = true → ptr.ch = true) (hfuel : frames.length < fuel)
    (hlen : frames.length ≤ s.cfg.sizeMax) (hw : w.WF) (hpl : Plenty w) (hsc : ¬ HugeScores s W H)
    (hpics : List.Forall₂ (Depicts B e W H) frames pics) (hexact : Exact s.cfg frames.length) :
    ∃ out w', resdetectFile s io fuel fn ft ptr m p w = some ((RDEOK, out), w') ∧ Delivers s m p W H (totalError u B e W H) pics ptr out := by
  obtain ⟨err, out, w', h1, h2, h3, h4, _⟩ := C15_readers (ptr := ptr) (fuel := fuel) h.build h.method h.params hy hrw hrh hfuel hlen hw hpl hsc
  rw [if_neg (not_not.mpr hsize), if_neg (not_not.mpr (depicts_finite (expected_pos hsize).1 hpics)), if_neg hne] at h2
  subst h2
  obtain ⟨ev, a, g1, g2, g3, g4⟩ := h3 rfl
  obtain ⟨E1, E2⟩ := returned_means h g1 g2 g3 g4 hpics hexact hlen
  exact ⟨out, w', h1, delivers h4 E1 E2⟩

/-- **C83** In the lists of the library: pictures enlarged in one direction by a symmetric filter, from `N` samples.  If of the pairs of coefficients
about `N` at least the share `t` is at least the error `d`, in every picture, then `N` is in the list, with a confidence of at least `t`. -/
theorem C83_enlarged (h : Suited s m p W H u B) (hsize : expected s W H = RDEOK) {d : ℝ} (hd : 0 < d) {t : ℚ} (htf : binary32.rnd t = t)
    (ht : val (effParams s.cfg (effMethod m) p).threshold ≤ t) (t0 : 0 ≤ t) {k N range : ℕ} (hrange : range = (effParams s.cfg (effMethod m) p).range)
    {F : Kernel k} (hF : F.Even N range) (hN : range ≤ N) {l : List Res} :
    (W = k * N → N + range < W → (∀ pic ∈ pics, RowsEnlarged F N H pic ∧ t * (H * range) ≤ clearPairs d (fun y x => dct2 W H pic x y) H range N) →
      WidthsOf s m p W H d pics l → ∃ q, (⟨N, .fin false q⟩ : Res) ∈ l ∧ t ≤ q ∧ q ≤ 1) ∧
    (H = k * N → N + range < H → (∀ pic ∈ pics, ColsEnlarged F N W pic ∧ t * (W * range) ≤ clearPairs d (fun x y => dct2 W H pic x y) W range N) →
      HeightsOf s m p W H d pics l → ∃ q, (⟨N, .fin false q⟩ : Res) ∈ l ∧ t ≤ q ∧ q ≤ 1) := by
  obtain ⟨w0, h0⟩ := expected_pos hsize
  have r0 : 0 < range := by rw [hrange]; exact (effParams_good h.build.wf (effMethod_mem h.method) h.params).1
  constructor
  · intro hW hlt hall hl
    unfold WidthsOf at hl
    rw [← hrange] at hl
    refine hl.sure t0 htf ht hN hlt fun X hX => ?_
    obtain ⟨pic, hp, rfl⟩ := List.mem_map.mp hX
    refine sure_flips hd h0 r0 ?_ (hall pic hp).2
    subst hW
    exact rows_flip (by omega) (Nat.pos_of_mul_pos_right w0) hF hN (hall pic hp).1
  · intro hH hlt hall hl
    unfold HeightsOf at hl
    rw [← hrange] at hl
    refine hl.sure t0 htf ht hN hlt fun X hX => ?_
    obtain ⟨pic, hp, rfl⟩ := List.mem_map.mp hX
    refine sure_flips hd w0 r0 ?_ (hall pic hp).2
    subst hH
    exact cols_flip (by omega) (Nat.pos_of_mul_pos_right h0) hF hN (hall pic hp).1

/-- **C83** In the lists of the library: pictures scaled in one direction from `N` samples to any number, by an interpolation curve. -/
theorem C83_scaled (h : Suited s m p W H u B) (hsize : expected s W H = RDEOK) {d : ℝ} (hd : 0 < d) {t : ℚ} (htf : binary32.rnd t = t)
    (ht : val (effParams s.cfg (effMethod m) p).threshold ≤ t) (t0 : 0 ≤ t) {N range : ℕ} (hrange : range = (effParams s.cfg (effMethod m) p).range)
    {κ : Curve} {A C : ℝ} (hκ : κ.Tame N) (hF : κ.Even N range) (hN : range ≤ N) (hC : 0 ≤ C) {l : List Res} :
    (N + range < W → (∀ k, N - range ≤ k → k ≤ N + range → κ.alias N W k ≤ A) → (∀ pic ∈ pics, RowsScaled κ N W H C pic ∧
        t * (H * range) ≤ clearPairs (d + 2 * H * (W / N * (C * A))) (fun y x => dct2 W H pic x y) H range N) →
      WidthsOf s m p W H d pics l → ∃ q, (⟨N, .fin false q⟩ : Res) ∈ l ∧ t ≤ q ∧ q ≤ 1) ∧
    (N + range < H → (∀ k, N - range ≤ k → k ≤ N + range → κ.alias N H k ≤ A) → (∀ pic ∈ pics, ColsScaled κ N H W C pic ∧
        t * (W * range) ≤ clearPairs (d + 2 * W * (H / N * (C * A))) (fun x y => dct2 W H pic x y) W range N) →
      HeightsOf s m p W H d pics l → ∃ q, (⟨N, .fin false q⟩ : Res) ∈ l ∧ t ≤ q ∧ q ≤ 1) := by
  obtain ⟨w0, h0⟩ := expected_pos hsize
  have r0 : 0 < range := by rw [hrange]; exact (effParams_good h.build.wf (effMethod_mem h.method) h.params).1
  constructor
  · intro hlt hA hall hl
    have hA0 : 0 ≤ A := le_trans (alias_nonneg κ) (hA N (Nat.sub_le _ _) (Nat.le_add_right _ _))
    unfold WidthsOf at hl
    rw [← hrange] at hl
    refine hl.sure t0 htf ht hN hlt fun X hX => ?_
    obtain ⟨pic, hp, rfl⟩ := List.mem_map.mp hX
    exact sure_near hd (by positivity) h0 r0 (rows_near (by omega) w0 hκ hF hN hA hC (hall pic hp).1) (hall pic hp).2
  · intro hlt hA hall hl
    have hA0 : 0 ≤ A := le_trans (alias_nonneg κ) (hA N (Nat.sub_le _ _) (Nat.le_add_right _ _))
    unfold HeightsOf at hl
    rw [← hrange] at hl
    refine hl.sure t0 htf ht hN hlt fun X hX => ?_
    obtain ⟨pic, hp, rfl⟩ := List.mem_map.mp hX
    exact sure_near hd (by positivity) w0 r0 (cols_near (by omega) h0 hκ hF hN hA hC (hall pic hp).1) (hall pic hp).2

/-- **C83** In the lists of the library: pictures with too few opposite signs about every size, on average, have their own size alone in the list. -/
theorem C83_original {d : ℝ} {range : ℕ} (hrange : range = (effParams s.cfg (effMethod m) p).range) {l : List Res} :
    ((∀ N, range ≤ N → N + range < W → (∀ pic ∈ pics, Clear d (fun y x => dct2 W H pic x y) H range N) ∧
        meanShare (pics.map (fun pic y x => dct2 W H pic x y)) H range N + meanError s.cfg pics.length < val (effParams s.cfg (effMethod m) p).threshold) →
      WidthsOf s m p W H d pics l → l = [⟨W, .fin true (-1)⟩]) ∧
    ((∀ N, range ≤ N → N + range < H → (∀ pic ∈ pics, Clear d (fun x y => dct2 W H pic x y) W range N) ∧
        meanShare (pics.map (fun pic x y => dct2 W H pic x y)) W range N + meanError s.cfg pics.length < val (effParams s.cfg (effMethod m) p).threshold) →
      HeightsOf s m p W H d pics l → l = [⟨H, .fin true (-1)⟩]) := by
  subst hrange
  constructor <;> intro h hl <;> refine hl.alone fun N h1 h2 => ⟨fun X hX => ?_, (h N h1 h2).2⟩
  all_goals
    obtain ⟨pic, hp, rfl⟩ := List.mem_map.mp hX
    exact (h N h1 h2).1 pic hp

/-! ## The bindings -/

theorem pyMeans_unique {c : Cfg} {d : PyDict} {p p' : Option Params} (h : PyMeans c d p) (h' : PyMeans c d p') : p = p' := by
  rcases h with ⟨h1, rfl⟩ | ⟨h1, q, rfl, h2, h3, h4⟩ <;> rcases h' with ⟨h1', rfl⟩ | ⟨h1', q', rfl, h2', h3', h4'⟩
  · rfl
  · exact absurd h1 h1'
  · exact absurd h1' h1
  · obtain ⟨a, b, c⟩ := q
    obtain ⟨a', b', c'⟩ := q'
    simp only at h2 h3 h4 h2' h3' h4'
    rw [← h2', Nat.cast_inj] at h2
    rw [← h4', Nat.cast_inj] at h4
    rw [← h3'] at h3
    rw [h2, h3, h4]

theorem jsMeans_unique {c : Cfg} {v : JsConv} {d : JsObject} {p p' : Option Params} (h : JsMeans c v d p) (h' : JsMeans c v d p') : p = p' := by
  rcases h with ⟨h1, rfl⟩ | ⟨h1, q, rfl, h2, h3, h4⟩ <;> rcases h' with ⟨h1', rfl⟩ | ⟨h1', q', rfl, h2', h3', h4'⟩
  · rfl
  · exact absurd h1 h1'
  · exact absurd h1' h1
  · obtain ⟨a, b, c⟩ := q
    obtain ⟨a', b', c'⟩ := q'
    simp only at h2 h3 h4 h2' h3' h4'
    rw [h2, h3, h4, h2', h3', h4']

theorem pyParameters_means {c : Cfg} {d : PyDict} (hd : d.unknown = false) (hs : Sane c d) (hw : w.WF) (hp : Plenty w) :
    ∃ q w1, pyParameters c d w = some (.ok q, w1) ∧ PyMeans c d (q.map Prod.snd) := by
  by_cases he : d = {}
  · exact ⟨none, w, C51_python_partial.2.1 he, Or.inl ⟨he, rfl⟩⟩
  · obtain ⟨b, p, w', h1, h2⟩ := C51_python_partial.2.2 hd he hs hw hp
    exact ⟨some (b, p), w', h1, Or.inr ⟨he, p, rfl, h2⟩⟩

theorem jsParameters_means {c : Cfg} {v : JsConv} {d : JsObject} (hd : d.unknown = false) (hs : SaneJs v d) (hw : w.WF) (hp : Plenty w) :
    ∃ q w1, jsParameters c v d w = some (.ok q, w1) ∧ JsMeans c v d (q.map Prod.snd) := by
  by_cases he : d = {}
  · exact ⟨none, w, C51_js_partial.2.1 he, Or.inl ⟨he, rfl⟩⟩
  · obtain ⟨r, w', h1, _, h2⟩ := C51_js_partial.2.2 hd he hw hp
    obtain ⟨b, p, rfl, h3⟩ := h2 hs
    exact ⟨some (b, p), w', h1, Or.inr ⟨he, p, rfl, h3⟩⟩

theorem pySize_of_le {c : Cfg} {n : ℕ} (h : n ≤ c.sizeMax) : pySize c (n : ℤ) = n := by
  unfold pySize
  rw [Int.emod_eq_of_lt (by omega) (by omega)]
  rfl

theorem Delivers.both {d : ℝ} {out : Out} (h : Delivers s m p W H d pics .all out) :
    ∃ l1 l2, answer (RDEOK, out) = .ok (l1, l2) ∧ WidthsOf s m p W H d pics l1 ∧ HeightsOf s m p W H d pics l2 := by
  obtain ⟨a, a1, _, a2⟩ := h.widths rfl
  obtain ⟨b, b1, _, b2⟩ := h.heights rfl
  refine ⟨a.data, b.data, ?_, a2, b2⟩
  unfold answer
  rw [if_pos rfl, a1, b1]
  rfl

/-- **C83** The Python function `resdetect` on a buffer of `float`s. -/
theorem C83_python (h : Suited s m p W H u B) (hsize : expected s W H = RDEOK) {d : PyDict} (hd : d.unknown = false) (hsane : Sane s.cfg d)
    (hdp : PyMeans s.cfg d p) {n : ℕ} {image : List Fl} (himg : image.length ≤ s.cfg.sizeMax) (hlen : n * (W * H) ≤ image.length) (hn : n ≠ 0)
    (hw : w.WF) (hpl : Plenty w) (hsc : ¬ HugeScores s W H) (hpics : List.Forall₂ (Depicts B e W H) (framesOf image W H n) pics)
    (hexact : Exact s.cfg n) :
    ∃ l1 l2 w', pyResdetect s (some image) n W H m d w = some (.ok (l1, l2), w') ∧ WidthsOf s m p W H (totalError u B e W H) pics l1 ∧
      HeightsOf s m p W H (totalError u B e W H) pics l2 ∧ SameHeap w w' := by
  obtain ⟨hW, hH⟩ := expected_pos hsize
  have hn0 : 0 < n := Nat.pos_of_ne_zero hn
  have hle := le_trans hlen himg
  have e1 : n ≤ s.cfg.sizeMax := le_trans (Nat.le_mul_of_pos_right n (Nat.mul_pos hW hH)) hle
  have e2 : W * H ≤ s.cfg.sizeMax := le_trans (Nat.le_mul_of_pos_left _ hn0) hle
  have e3 : W ≤ s.cfg.sizeMax := le_trans (Nat.le_mul_of_pos_right W hH) e2
  have e4 : H ≤ s.cfg.sizeMax := le_trans (Nat.le_mul_of_pos_left H hW) e2
  have key := (C68_resdetect (image := some image) (n := n) (W := W) (H := H) (d := d) h.build h.method
    (Or.inr (Or.inr ⟨hpl, by rw [pySize_of_le e3, pySize_of_le e4]; exact hsc⟩))
    (by rintro _ h; cases h; rw [pySize_of_le e1, pySize_of_le e3, pySize_of_le e4]; exact ⟨himg, hlen⟩) hw).2 hd
  rw [pySize_of_le e1, pySize_of_le e3, pySize_of_le e4] at key
  obtain ⟨q, w1, v, w2, w', k1, k2, k3, k4⟩ := key
  obtain ⟨q', w1', k5, k6⟩ := pyParameters_means hd hsane hw hpl
  rw [k1] at k5
  cases k5
  rw [pyMeans_unique k6 hdp] at k2
  obtain ⟨q'', w1'', g1, _, g3⟩ := pyParameters_own (F := ∃ j, w.sched j = false) h.build hd hw (fun j h => ⟨j, h⟩)
  rw [k1] at g1
  cases g1
  obtain ⟨out, w3, h1, h2⟩ := C83_resdetect (ptr := .all) h hsize himg hlen hn (fun _ => rfl) (fun _ => rfl) g3.wf (still g3.sched hpl) hsc hpics hexact
  rw [k2] at h1
  cases h1
  obtain ⟨l1, l2, h3, h4, h5⟩ := h2.both
  exact ⟨l1, l2, w', by rw [k3, h3], h4, h5, k4⟩

/-- **C83** The Python function `resdetect_file`, for every format. -/
theorem C83_python_file (h : Suited s m p W H u B) (hsize : expected s W H = RDEOK) {d : PyDict} (hd : d.unknown = false) (hsane : Sane s.cfg d)
    (hdp : PyMeans s.cfg d p) (hy : Presents s io (resdetOpenImage s io fn ft true true true) 0 W H frames)
    (hne : frames ≠ []) (hfuel : frames.length < fuel) (hlen : frames.length ≤ s.cfg.sizeMax) (hw : w.WF) (hpl : Plenty w) (hsc : ¬ HugeScores s W H)
    (hpics : List.Forall₂ (Depicts B e W H) frames pics) (hexact : Exact s.cfg frames.length) :
    ∃ l1 l2 w', pyResdetectFile s io fuel fn ft m d w = some (.ok (l1, l2), w') ∧ WidthsOf s m p W H (totalError u B e W H) pics l1 ∧
      HeightsOf s m p W H (totalError u B e W H) pics l2 ∧ SameHeap w w' ∧ ∀ f, f ∈ w'.files ↔ f ∈ w.files := by
  obtain ⟨q, w1, k1, k2⟩ := pyParameters_means hd hsane hw hpl
  obtain ⟨q', w1', g1, _, g3⟩ := pyParameters_own (F := ∃ j, w.sched j = false) h.build hd hw (fun j h => ⟨j, h⟩)
  rw [k1] at g1
  cases g1
  have hpl1 := still g3.sched hpl
  obtain ⟨out, w2, h1, h2⟩ := C83_file (ptr := .all) (fuel := fuel) h hsize hy hne (fun _ => rfl) (fun _ => rfl) hfuel hlen g3.wf hpl1 hsc hpics hexact
  obtain ⟨err, out', w2', h3, _, _, h5, h6, h7, h8, h9⟩ := C15_readers (ptr := .all) (fuel := fuel) h.build h.method h.params hy (fun _ => rfl) (fun _ => rfl)
    hfuel hlen g3.wf hpl1 hsc
  rw [h1] at h3
  cases h3
  obtain ⟨w', k3, k4⟩ := pyFinish_run g3 (v := (RDEOK, out)) ⟨h6, h7, h5, h8, h9⟩
  obtain ⟨l1, l2, h10, h11, h12⟩ := h2.both
  rw [← pyMeans_unique k2 hdp] at h1
  refine ⟨l1, l2, w', ?_, h11, h12, k4.same⟩
  unfold pyResdetectFile
  rw [M.bind_some k1]
  exact (M.bind_some h1).trans (by rw [← h10]; exact k3)

/-- **C83** The JavaScript function `resDetect`. -/
theorem C83_js (h : Suited s m p W H u B) (hsize : expected s W H = RDEOK) {v : JsConv} {d : JsObject} (hd : d.unknown = false) (hsane : SaneJs v d)
    (hdp : JsMeans s.cfg v d p) (hv : ∀ x, v.size x ≤ s.cfg.sizeMax) {n : ℕ} {nf Wf Hf : Fl} (en : v.size nf = n) (eW : v.size Wf = W) (eH : v.size Hf = H)
    {image : List Fl} (himg : image.length * 4 ≤ s.cfg.sizeMax) (hlen : n * (W * H) ≤ image.length) (hn : n ≠ 0)
    (hw : w.WF) (hpl : Plenty w) (hsc : ¬ HugeScores s W H) (hpics : List.Forall₂ (Depicts B e W H) (framesOf image W H n) pics)
    (hexact : Exact s.cfg n) :
    ∃ l1 l2 w', jsResDetect s v image nf Wf Hf m d w = some (.ok (l1, l2), w') ∧ WidthsOf s m p W H (totalError u B e W H) pics l1 ∧
      HeightsOf s m p W H (totalError u B e W H) pics l2 ∧ SameHeap w w' := by
  subst en eW eH
  obtain ⟨q, w1, k1, k2⟩ := jsParameters_means hd hsane hw hpl
  obtain ⟨r, w', g1, g2⟩ := C69_resDetect_partial h.build h.method (Or.inr (Or.inr ⟨hpl, hsc⟩)) hv himg hlen hw k1
  rcases g2 with ⟨_, j, hj⟩ | ⟨g2, wc, o, w2, g3, g4, g5, rfl⟩
  · rw [hpl j] at hj; cases hj
  · rw [jsMeans_unique k2 hdp] at g5
    obtain ⟨out, w3, h1, h2⟩ := C83_resdetect (ptr := .all) h hsize (by omega) hlen hn (fun _ => rfl) (fun _ => rfl) g3 (g4 hpl) hsc hpics hexact
    rw [g5] at h1
    cases h1
    obtain ⟨l1, l2, h3, h4, h5⟩ := h2.both
    exact ⟨l1, l2, w', by rw [g1, h3], h4, h5, g2⟩

/-! ## Examples: width 2, doubled by linear interpolation -/

namespace Demo

theorem ramp4_depicts : Depicts 1 (2 ^ (-24 : ℤ)) 4 1 ramp4 (pixel 4 ramp4) :=
  ⟨ramp4_sampled, fun i j _ _ => by rw [sub_self, abs_zero]; positivity⟩

/-- The sign method with range 1. -/
noncomputable def rowParams : Params := { defaultParams Demo.sysN.cfg with range := 1 }

theorem row_job (io : Io) : Job Demo.sysN io Demo.cliEnv true (plainWords (cs "a.pgm")) (rowOpts "3") (cs "a.pgm") Demo.sign rowParams Demo.w0 4 1 3
    (2 ^ (-24 : ℤ)) 1 :=
  plain_job (W := 4) (by norm_num) (by norm_num) demoN_moderate io (Or.inl (by decide) : Operand (cs "a.pgm"))

theorem row_suited : Suited Demo.sysN (some Demo.sign) (some rowParams) 4 1 (2 ^ (-24 : ℤ)) 1 := (row_job (Demo.disk [] true)).suited

theorem row_size : expected Demo.sysN 4 1 = RDEOK := (row_job (Demo.disk [] true)).size

theorem row_scores : ¬ HugeScores Demo.sysN 4 1 := (row_job (Demo.disk [] true)).scores

theorem row_exact : Exact Demo.sysN.cfg 1 := show Exact (lp64 .kiss) 1 from ⟨by decide +kernel, by decide +kernel⟩

theorem row_frames : framesOf ramp4 4 1 1 = [ramp4] := by simp [framesOf, frameOf, ramp4]

theorem row_sampled : List.Forall₂ (Depicts 1 (2 ^ (-24 : ℤ)) 4 1) (framesOf ramp4 4 1 1) [pixel 4 ramp4] := by
  rw [row_frames]
  exact .cons ramp4_depicts .nil

theorem row_image : ramp4.length * 4 ≤ Demo.sysN.cfg.sizeMax := show 4 * 4 ≤ (lp64 .kiss).sizeMax by decide +kernel

/-- Width 2 is found. -/
theorem row_finds {e : ℝ} (he : 0 < e) (he' : e ≤ 1 / 1000) {l : List Res}
    (hl : WidthsOf Demo.sysN (some Demo.sign) (some rowParams) 4 1 (totalError (2 ^ (-24 : ℤ)) 1 e 4 1) [pixel 4 ramp4] l) :
    (⟨2, .fin false 1⟩ : Res) ∈ l := by
  have hE : totalError (2 ^ (-24 : ℤ)) 1 e 4 1 ≤ 1 / 10 := by
    unfold totalError errorBound
    rw [primeSum_four, primeSum_one]
    norm_num
    linarith
  obtain ⟨q, hq, q1, q2⟩ := (C83_enlarged (t := 1) (k := 2) (N := 2) (range := 1) (F := linear 2) row_suited row_size
    (error_pos (by positivity) zero_le_one he (by norm_num) one_pos) (by decide +kernel) (row_job (Demo.disk [] true)).threshold_le zero_le_one rfl
    (C74_linear (by norm_num) (by decide)).2 (by decide)).1 rfl (by decide) (by
      intro pic hpic
      obtain rfl := List.mem_singleton.mp hpic
      refine ⟨ramp4_enlarged, le_of_eq ?_⟩
      rw [ramp4_pairs hE]
      norm_num) hl
  rwa [le_antisymm q2 q1] at hq

/-- The file with these samples, rounded. -/
theorem file4_presents : Presents Demo.sysN (Demo.disk file4 true) (resdetOpenImage Demo.sysN (Demo.disk file4 true) (some (cs "a.pgm")) none true true true)
    0 4 1 [[255, 191, 64, 0].map (fun b : UInt8 => normal 255 b.toNat)] := by
  have hu : Uses Demo.sysN (Demo.disk file4 true) (cs "a.pgm") (cs "pgm")
      (resdetOpenImage Demo.sysN (Demo.disk file4 true) (some (cs "a.pgm")) none true true true) :=
    .byType (ext := cs "pgm") (.suffix (cs "a") (cs "pgm") (by decide) (by decide)) (Or.inr (by decide)) rfl
  have hpl := C31_pgm rfl hu (Demo.disk_holds (by decide)) file4_pgm (show Verif.Within (lp64 .kiss) 4 1 by constructor <;> decide +kernel)
  exact .native (.pgm rfl hu) ((C48_plays hpl (k := 0)).1 (by simp) trivial)

theorem file4_depicts : List.Forall₂ (Depicts 1 (2 ^ (-24 : ℤ) + 1 / 1020) 4 1) [[255, 191, 64, 0].map (fun b : UInt8 => normal 255 b.toNat)] [pixel 4 ramp4] :=
  .cons (depicts_near (gray_depicts (by norm_num) rfl (by decide)) file4_near) .nil

/-- The dictionary. -/
def rowDict : PyDict := ⟨some 1, none, none, false⟩

theorem rowDict_means : PyMeans Demo.sysN.cfg rowDict (some rowParams) := Or.inr ⟨by decide, rowParams, rfl, rfl, rfl, rfl⟩

theorem rowDict_sane : Sane Demo.sysN.cfg rowDict where
  range := by rintro n h; cases h; exact ⟨le_rfl, show (1 : ℤ) ≤ (lp64 .kiss).sizeMax by decide +kernel⟩
  threshold := by rintro t h; cases h
  filter := by rintro n h; cases h

end Demo

/-- The hypotheses of `C15_readers` can be met. -/
example : ∃ err out w', resdetectFile Demo.sysN (Demo.disk Demo.file4 true) 2 (some (cs "a.pgm")) none .all (some Demo.sign) (some Demo.rowParams) Demo.w0 =
    some ((err, out), w') ∧ Outputs .all err out Demo.w0 w' := by
  obtain ⟨err, out, w', h1, _, _, h2, _⟩ := C15_readers (ptr := .all) (fuel := 2) Demo.row_suited.build Demo.row_suited.method Demo.row_suited.params
    Demo.file4_presents (fun _ => rfl) (fun _ => rfl) (by decide) (show 1 ≤ (lp64 .kiss).sizeMax by decide +kernel) Demo.w0_wf (fun _ => rfl) Demo.row_scores
  exact ⟨err, out, w', h1, h2⟩

/-- The hypotheses of C83 for an analysis can be met. -/
example : ∃ ev a rw cw rh ch, Returned Demo.sysN (some Demo.sign) 4 1 (some Demo.rowParams) ev a rw cw rh ch ∧ NoOom ev ∧
    (analysed ev).map (fun x => x.1.op) = [ramp4].map (fun f => Op.analyze (some f)) ∧ ∀ x ∈ analysed ev, Plenty x.1.world := by
  have himg : ramp4.length ≤ Demo.sysN.cfg.sizeMax := by have := Demo.row_image; omega
  obtain ⟨out, w', h1, _⟩ := C83_resdetect (ptr := .all) Demo.row_suited Demo.row_size (image := ramp4) (n := 1) himg le_rfl
    one_ne_zero (fun _ => rfl) (fun _ => rfl) Demo.w0_wf (fun _ => rfl) Demo.row_scores Demo.row_sampled Demo.row_exact
  obtain ⟨ev, a, h2, _, h3, h4, h5⟩ := C14_resdetect_history Demo.row_suited.build Demo.row_suited.method Demo.row_suited.params himg le_rfl Demo.w0_wf h1
  obtain ⟨han, hno⟩ := all_analysed h3
  exact ⟨ev, a, _, _, _, _, h2, hno, by rw [han, h4, Demo.row_frames], by rw [han]; exact h5 (fun _ => rfl) Demo.row_scores⟩

/-- The hypotheses of C83 for `resdetect` can be met. -/
example : ∃ out w' l, resdetect Demo.sysN (some ramp4) 1 4 1 .all (some Demo.sign) (some Demo.rowParams) Demo.w0 = some ((RDEOK, out), w') ∧
    out.rw = some l ∧ ⟨2, .fin false 1⟩ ∈ l.data := by
  obtain ⟨out, w', h1, h2⟩ := C83_resdetect (ptr := .all) Demo.row_suited Demo.row_size (image := ramp4) (n := 1) (by have := Demo.row_image; omega) le_rfl
    one_ne_zero (fun _ => rfl) (fun _ => rfl) Demo.w0_wf (fun _ => rfl) Demo.row_scores Demo.row_sampled Demo.row_exact
  obtain ⟨l, h3, _, h4⟩ := h2.widths rfl
  exact ⟨out, w', l, h1, h3, Demo.row_finds (by positivity) (by norm_num) h4⟩

/-- The hypotheses of C83 for `resdetect_file` can be met. -/
example : ∃ out w' l, resdetectFile Demo.sysN (Demo.disk Demo.file4 true) 2 (some (cs "a.pgm")) none .all (some Demo.sign) (some Demo.rowParams) Demo.w0 =
    some ((RDEOK, out), w') ∧ out.rw = some l ∧ ⟨2, .fin false 1⟩ ∈ l.data := by
  obtain ⟨out, w', h1, h2⟩ := C83_file (ptr := .all) (fuel := 2) Demo.row_suited Demo.row_size Demo.file4_presents (List.cons_ne_nil _ _) (fun _ => rfl)
    (fun _ => rfl) (by decide) (show 1 ≤ (lp64 .kiss).sizeMax by decide +kernel) Demo.w0_wf (fun _ => rfl) Demo.row_scores Demo.file4_depicts Demo.row_exact
  obtain ⟨l, h3, _, h4⟩ := h2.widths rfl
  exact ⟨out, w', l, h1, h3, Demo.row_finds (by positivity) (by norm_num) h4⟩

/-- The hypotheses of C83 for Python can be met. -/
example : ∃ l1 l2 w', pyResdetect Demo.sysN (some ramp4) 1 4 1 (some Demo.sign) Demo.rowDict Demo.w0 = some (.ok (l1, l2), w') ∧ ⟨2, .fin false 1⟩ ∈ l1 := by
  obtain ⟨l1, l2, w', h1, h2, _⟩ := C83_python Demo.row_suited Demo.row_size (d := Demo.rowDict) rfl Demo.rowDict_sane Demo.rowDict_means (image := ramp4)
    (n := 1) (by have := Demo.row_image; omega) le_rfl one_ne_zero Demo.w0_wf (fun _ => rfl) Demo.row_scores Demo.row_sampled Demo.row_exact
  exact ⟨l1, l2, w', h1, Demo.row_finds (by positivity) (by norm_num) h2⟩

/-- The hypotheses of C83 for files in Python can be met. -/
example : ∃ l1 l2 w', pyResdetectFile Demo.sysN (Demo.disk Demo.file4 true) 2 (some (cs "a.pgm")) none (some Demo.sign) Demo.rowDict Demo.w0 =
    some (.ok (l1, l2), w') ∧ ⟨2, .fin false 1⟩ ∈ l1 := by
  obtain ⟨l1, l2, w', h1, h2, _⟩ := C83_python_file (fuel := 2) Demo.row_suited Demo.row_size (d := Demo.rowDict) rfl Demo.rowDict_sane Demo.rowDict_means
    Demo.file4_presents (List.cons_ne_nil _ _) (by decide) (show 1 ≤ (lp64 .kiss).sizeMax by decide +kernel) Demo.w0_wf (fun _ => rfl) Demo.row_scores
    Demo.file4_depicts Demo.row_exact
  exact ⟨l1, l2, w', h1, Demo.row_finds (by positivity) (by norm_num) h2⟩

/-- The hypotheses of C83 for JavaScript can be met. -/
example : ∃ l1 l2 w', jsResDetect Demo.sysN Demo.conv ramp4 (.fin false 1) (.fin false 4) (.fin false 1) (some Demo.sign) ⟨some (.fin false 1), none, none, false⟩ Demo.w0 =
    some (.ok (l1, l2), w') ∧ ⟨2, .fin false 1⟩ ∈ l1 := by
  have e1 : Demo.conv.size (.fin false 1) = 1 := by decide +kernel
  have e4 : Demo.conv.size (.fin false 4) = 4 := by decide +kernel
  obtain ⟨l1, l2, w', h1, h2, _⟩ := C83_js Demo.row_suited Demo.row_size (v := Demo.conv) (d := ⟨some (.fin false 1), none, none, false⟩) rfl
    ⟨(by rintro n h; cases h; rw [e1]), (by rintro n h; cases h), (by rintro n h; cases h)⟩
    (Or.inr ⟨by decide, Demo.rowParams, rfl, e1.symm, rfl, rfl⟩) Demo.conv_size e1 e4 e1 (image := ramp4)
    Demo.row_image le_rfl one_ne_zero Demo.w0_wf (fun _ => rfl) Demo.row_scores Demo.row_sampled Demo.row_exact
  exact ⟨l1, l2, w', h1, Demo.row_finds (by positivity) (by norm_num) h2⟩

/-- The hypotheses of C83 for scaled pictures can be met: width 2 scaled to 9. -/
example {l : List Res} (hl : WidthsOf Demo.sysN (some Demo.sign) (some Demo.rowParams) 9 1 (totalError (2 ^ (-24 : ℤ)) 1 (2 ^ (-24 : ℤ) + 1 / 510) 9 1) [ramp9] l) :
    (⟨2, .fin false 1⟩ : Res) ∈ l := by
  have hj := Demo.plain_job (W := 9) (by norm_num) (by norm_num) demoN_moderate9 (Demo.disk Demo.file9 true) (Or.inl (by decide) : Operand (cs "a.pgm"))
  obtain ⟨q, hq, q1, q2⟩ := (C83_scaled (t := 1) (N := 2) (range := 1) (κ := linearCurve) (C := 2) (A := (2 / Real.pi) ^ 2 * (2 : ℕ) ^ 2 / 72) hj.suited hj.size
    (Demo.error_pos (by positivity) zero_le_one (by positivity) (by norm_num) one_pos) (by decide +kernel) hj.threshold_le zero_le_one rfl
    (C76_curves (by norm_num : 1 < 2) (by norm_num : 0 < 1)).1.1 (C76_curves (by decide) (by norm_num : 0 < 1)).1.2.1 (by decide) zero_le_two).1 (by decide)
    (by
      intro k _ h4
      refine le_trans (C76_curves (by norm_num : 1 < 2) (by omega : k < 9)).1.2.2 ?_
      have hk : (k : ℝ) ≤ 3 := by exact_mod_cast h4
      have k0 : (0 : ℝ) ≤ k := by positivity
      refine div_le_div_of_nonneg_left (by positivity) (by norm_num) ?_
      push_cast
      nlinarith)
    (by
      intro pic hp
      obtain rfl := List.mem_singleton.mp hp
      have hq : (2 / Real.pi) ^ 2 ≤ 41 / 100 := by
        rw [div_pow, div_le_div_iff₀ (by positivity) (by norm_num)]
        nlinarith [Real.pi_gt_d2]
      have := Demo.error9
      have := ramp9_pairs (d := totalError (2 ^ (-24 : ℤ)) 1 (2 ^ (-24 : ℤ) + 1 / 510) 9 1 +
        2 * (1 : ℕ) * ((9 : ℕ) / (2 : ℕ) * (2 * ((2 / Real.pi) ^ 2 * (2 : ℕ) ^ 2 / 72)))) (by push_cast; linarith)
      refine ⟨ramp9_scaled, le_of_eq ?_⟩
      refine Eq.trans ?_ (congrArg Nat.cast this.symm)
      norm_num) hl
  rwa [le_antisymm q2 q1] at hq

/-- The hypotheses of C83 for pictures that were not scaled can be met: a row with one bright pixel. -/
example {l : List Res} (hl : WidthsOf Demo.sysN (some Demo.sign) (some Demo.rowParams) 4 1 (totalError (2 ^ (-24 : ℤ)) 1 (2 ^ (-24 : ℤ)) 4 1)
    [pixel 4 Demo.dotRow.samples] l) : l = [⟨4, .fin true (-1)⟩] := by
  refine (C83_original (range := 1) rfl).1 (fun N a b => ?_) hl
  obtain ⟨ca, cb, sa, sb, r⟩ := eighth
  obtain ⟨X0, X1, X2, X3⟩ := spectrum4 (pixel 4 Demo.dotRow.samples)
  have g0 : pixel 4 Demo.dotRow.samples 0 0 = 1 := by rw [Demo.dotRow_samples]; simp [pixel, val]
  have g1 : pixel 4 Demo.dotRow.samples 1 0 = 0 := by rw [Demo.dotRow_samples]; simp [pixel, val]
  have g2 : pixel 4 Demo.dotRow.samples 2 0 = 0 := by rw [Demo.dotRow_samples]; simp [pixel, val]
  have g3 : pixel 4 Demo.dotRow.samples 3 0 = 0 := by rw [Demo.dotRow_samples]; simp [pixel, val]
  rw [g0, g1, g2, g3] at X0 X1 X2 X3
  generalize Real.cos (Real.pi / 8) = co at *
  generalize Real.sin (Real.pi / 8) = si at *
  norm_num at X0 X1 X2 X3
  simp only [List.map_cons, List.map_nil, List.length_cons, List.length_nil]
  generalize pixel 4 Demo.dotRow.samples = pic at *
  have Y0 : 1 / 10 < dct2 4 1 pic 0 0 := by rw [X0]; norm_num
  have Y1 : 1 / 10 < dct2 4 1 pic 1 0 := by rw [X1]; linarith
  have Y2 : 1 / 10 < dct2 4 1 pic 2 0 := by rw [X2]; linarith
  have Y3 : 1 / 10 < dct2 4 1 pic 3 0 := by rw [X3]; linarith
  have s1 : share (fun v u => dct2 4 1 pic u v) 1 1 1 = 0 := row_share.2 (mul_pos (by linarith) (by linarith))
  have s2 : share (fun v u => dct2 4 1 pic u v) 1 1 2 = 0 := row_share.2 (mul_pos (by linarith) (by linarith))
  have hth : 0 + meanError (lp64 .kiss) 1 < val (effParams (lp64 .kiss) Demo.sign (some { defaultParams (lp64 .kiss) with range := 1 })).threshold := by
    decide +kernel
  have h0 : ∀ N, share (fun v u => dct2 4 1 pic u v) 1 1 N = 0 → meanShare [fun y x => dct2 4 1 pic x y] 1 1 N = 0 := fun N h => by simp [meanShare, h]
  have hN := row_positions a b
  refine ⟨fun p hp => ?_, ?_⟩
  · obtain rfl : p = pic := by simpa using hp
    rcases hN with rfl | rfl
    · exact row_clear le_rfl (le_abs.mpr (Or.inl Y0.le)) (le_abs.mpr (Or.inl Y2.le))
    · exact row_clear (by norm_num) (le_abs.mpr (Or.inl Y1.le)) (le_abs.mpr (Or.inl Y3.le))
  · refine lt_of_eq_of_lt (congrArg (· + _) (h0 N ?_)) hth
    rcases hN with rfl | rfl
    · exact s1
    · exact s2

end Verif.Props
