import Verif.Props.CliText
import Verif.Props.Mirror
import Verif.Proofs.EndToEnd
import Verif.Proofs.Fences

/-! # From the file to the printed result (C79) -/

namespace Verif.Props

open Spec

variable {s : Sys} {io : Io} {v : CliEnv} {opts : List CliOpt} {input : List UInt8} {m : Method} {p : Params} {fuel : ℕ} {w : World} {W H : ℕ}
  {vb : ℤ} {maxval : ℕ} {raster : List UInt8} {u : ℝ}

/-- The command is asked to analyse a PGM with the sign method and no filter, on a build with the bundled transform whose operations and tables
have errors up to `u`; there is enough memory, and the size is acceptable. -/
structure Asked (s : Sys) (io : Io) (v : CliEnv) (opts : List CliOpt) (input : List UInt8) (m : Method) (p : Params) (w : World) (W H : ℕ) (vb : ℤ)
    (maxval : ℕ) (raster : List UInt8) (u : ℝ) : Prop where
  build : Build s
  bundled : s.cfg.backend = .kiss
  precise : Precise s.cfg
  exact : Exact s.cfg 1
  accurate : Accurate s u
  moderate : Moderate s u 1 W H
  heap : w.WF
  memory : Plenty w
  scores : ¬ HugeScores s W H
  pixels : W * H ≤ 2 ^ s.cfg.inter.p
  size : expected s W H = RDEOK
  limits : Verif.Within s.cfg W H
  wants : Wants s.cfg io v opts input m p
  sign : m.func = .sign
  unfiltered : p.compressionFilter = 0
  verbosity : Verbosity s.cfg opts vb
  whole : last CliOpt.oArg opts = none ∧ last CliOpt.nArg opts = none
  reader : io.omitPgm = false ∧ Uses s io input (cs "pgm") (opening s io opts input)
  file : ∃ bytes k, io.fs.Holds input (bytes, k) ∧ PgmFile W H maxval raster bytes
  values : ∀ b ∈ raster, b.toNat ≤ maxval

/-- Samples are within 2^-24 of the gray values. -/
theorem normal_near {b : ℕ} (h1 : 1 ≤ maxval) (hb : b ≤ maxval) : ∃ q : ℚ, normal maxval b = .fin false q ∧ |(q : ℝ)| ≤ 1 ∧ |(q : ℝ) - (b : ℝ) / maxval| ≤ 2 ^ (-24 : ℤ) := by
  have hm : (0 : ℚ) < maxval := by exact_mod_cast h1
  have h0 : (0 : ℚ) ≤ (b : ℚ) / maxval := div_nonneg (Nat.cast_nonneg _) hm.le
  have h2 : (b : ℚ) / maxval ≤ 1 := by rw [div_le_one hm]; exact_mod_cast hb
  obtain ⟨r0, r1⟩ := rnd_unit binary32_wf h0 h2
  refine ⟨_, rfl, ?_, ?_⟩
  · rw [abs_of_nonneg (by exact_mod_cast r0)]
    exact_mod_cast r1
  · have := binary32.rnd_err binary32_wf (K := 1) le_rfl h0 (by exact_mod_cast h2)
    have e : pow2 (-binary32.p) = 1 / 2 ^ 24 := by decide +kernel
    rw [e] at this
    have h3 : ((|binary32.rnd ((b : ℚ) / maxval) - (b : ℚ) / maxval| : ℚ) : ℝ) ≤ ((((1 : ℕ) : ℚ) * (1 / 2 ^ 24) : ℚ) : ℝ) := by exact_mod_cast this
    push_cast at h3
    refine le_trans h3 (le_of_eq ?_)
    norm_num


/-- The threshold used is a `float`. -/
theorem threshold_float (h : WantsThreshold v opts p.threshold) (hm : m ∈ methods) :
    binary32.rnd (val (effParams s.cfg m (some p)).threshold) = val (effParams s.cfg m (some p)).threshold := by
  have hmt : binary32.rnd (val m.threshold) = val m.threshold := by
    unfold methods at hm
    simp only [List.mem_cons, List.not_mem_nil, or_false] at hm
    rcases hm with rfl | rfl | rfl | rfl <;> decide +kernel
  have e : (effParams s.cfg m (some p)).threshold = if p.threshold = .fin true (-1) then m.threshold else p.threshold := rfl
  rw [e]
  split
  · exact hmt
  · rcases h with ⟨_, h⟩ | ⟨a, d, _, _, h, b, t, ht, _⟩
    · contradiction
    · rw [h] at ht ⊢
      rw [ht]
      exact conv_rep ht

theorem plays_pgm (h : Asked s io v opts input m p w W H vb maxval raster u) :
    Plays (opening s io opts input) W H [raster.map (fun b => normal maxval b.toNat)] (fun _ => True) ∧ 1 ≤ maxval ∧ raster.length = W * H := by
  obtain ⟨bytes, k, h1, h2⟩ := h.file
  refine ⟨C31_pgm h.reader.1 h.reader.2 h1 h2 h.limits, ?_⟩
  cases h2 with
  | mk h3 h4 => cases h3; exact ⟨by assumption, h4⟩

/-- **C79** The command succeeds on a PGM, and what it prints can be read as two lists.  These are the lists exact arithmetic gives for the gray
values in the file, at every size about which the exact coefficients are at least `totalError`. -/
theorem C79_lists (h : Asked s io v opts input m p w W H vb maxval raster u) (hfuel : 1 < fuel) :
    ∃ ex w' l1 l2, cliMain s io v fuel opts (some input) w = some (ex, w') ∧ Legible vb W H l1 l2 (cliText ex.shown) ∧
      ex.code = (if vb = 0 ∧ l1.length = 1 ∧ l2.length = 1 then 1 else 0) ∧
      ExactList s.cfg.inter (totalError u 1 (2 ^ (-24 : ℤ)) W H) (val (effParams s.cfg m (some p)).threshold) p.range W H
        (fun y x => dct2 W H (gray W maxval raster) x y) l1 ∧
      ExactList s.cfg.inter (totalError u 1 (2 ^ (-24 : ℤ)) W H) (val (effParams s.cfg m (some p)).threshold) p.range H W
        (fun x y => dct2 W H (gray W maxval raster) x y) l2 := by
  obtain ⟨hpl, m1, hlen⟩ := plays_pgm h
  set image := raster.map (fun b => normal maxval b.toNat) with himage
  have hs := h.build
  have hm := valid_method h.wants
  have hp := valid_params hs h.wants
  have hy : YieldsAfter (opening s io opts input) 0 W H [image] RDEOK := by
    have := (C48_plays hpl (k := 0)).1 (by simp) trivial
    simpa using this
  have hpix : ∀ i j, i < W → j < H → ∃ b ∈ raster, raster[j * W + i]? = some b ∧ image[j * W + i]? = some (normal maxval b.toNat) := by
    intro i j hi hj
    have hlt : j * W + i < raster.length := by
      rw [hlen]
      calc j * W + i < j * W + W := by omega
        _ = (j + 1) * W := by ring
        _ ≤ H * W := Nat.mul_le_mul_right W hj
        _ = W * H := mul_comm _ _
    refine ⟨raster[j * W + i], List.getElem_mem hlt, List.getElem?_eq_getElem hlt, ?_⟩
    rw [himage, List.getElem?_map, List.getElem?_eq_getElem hlt]
    rfl
  have hsam : Sampled 1 W H image := by
    intro i j hi hj
    obtain ⟨b, hb, _, h2⟩ := hpix i j hi hj
    obtain ⟨q, e, q1, _⟩ := normal_near m1 (h.values b hb)
    exact ⟨false, q, by rw [h2, e], q1⟩
  have hnear : ∀ i j, i < W → j < H → |pixel W image i j - gray W maxval raster i j| ≤ 2 ^ (-24 : ℤ) := by
    intro i j hi hj
    obtain ⟨b, hb, h1, h2⟩ := hpix i j hi hj
    obtain ⟨q, e, _, q2⟩ := normal_near m1 (h.values b hb)
    unfold pixel gray
    rw [h1, h2, e]
    exact q2
  have hfin : frameError W H [image] = RDEOK := by
    unfold frameError
    rw [if_pos]
    intro f hf x hx
    rw [List.mem_singleton] at hf
    subst hf
    have := List.mem_of_mem_take hx
    rw [himage, List.mem_map] at this
    obtain ⟨b, _, rfl⟩ := this
    rfl
  have hsz : ([image] : List (List Fl)).length < s.cfg.sizeMax := by
    obtain ⟨a1, a2, _, a4⟩ := h.limits
    have := Nat.mul_pos a1 a2
    rw [List.length_singleton]
    omega
  obtain ⟨ex, w', e1, _, e2⟩ := C48_readers (fuel := fuel) hs h.heap h.memory h.scores h.wants h.verbosity (Or.inl ⟨h.whole.1, rfl⟩)
    (.native (.pgm h.reader.1 h.reader.2) hy) (Or.inl ⟨h.whole.2, rfl⟩) hfuel hsz
  obtain ⟨ev, a, l1, l2, hsu, hfed, hplw⟩ := e2 (by
    rintro (h1 | h1 | h1)
    · exact h1 h.size
    · exact h1 hfin
    · cases h1)
  obtain ⟨f1, f2⟩ := fed_ok hfed
  have han : analysed ev = ev := by
    refine List.filter_eq_self.mpr fun x hx => ?_
    have := List.mem_map_of_mem (f := fun x => x.2) hx
    rw [f1] at this
    simp [List.eq_of_mem_replicate this]
  have hno : NoOom ev := by
    intro x hx
    have := List.mem_map_of_mem (f := fun x => x.2) hx
    rw [f1] at this
    rw [List.eq_of_mem_replicate this]
    decide
  have hcount : (analysed ev).length = 1 := by
    rw [han, ← List.length_map (fun x : Call × Obs => x.2), f1, List.length_replicate]
    rfl
  obtain ⟨fs, hfs, _⟩ := (reach_inv hs hm hp hsu.returned.1).scores hno
  obtain ⟨_, hl1, hX, hY⟩ := returned_listed hs hm hp hno (by rw [hcount]; exact hsz.le) hsu.returned hfs
  obtain ⟨w0, h0, _, _, r0, htu⟩ := returned_sizes hs h.precise hm hp hsu.returned
  have hacc := history_accuracy hs h.bundled hm hp hsu.returned.1 h.accurate h.moderate (Or.inr (by rw [han]; exact hplw)) hfs (Q := fun im => im = image)
    (fun x hx => by
      rw [han] at hx
      have := List.mem_map_of_mem (f := fun x => x.1.op) hx
      rw [f2] at this
      simp only [List.map_cons, List.map_nil, List.mem_singleton] at this
      exact ⟨image, this, hsam, rfl⟩)
  rw [hcount, List.length_eq_one_iff] at hl1
  obtain ⟨f, rfl⟩ := hl1
  obtain ⟨x, _, im, _, rfl, hw⟩ := C57_sign.forall₂_right hacc f (by simp)
  have hrange : (effParams s.cfg (effMethod (some m)) (some p)).range = p.range := by
    show (if m.func = .zerox then 1 else p.range) = p.range
    rw [h.sign]
    rfl
  have hsh : ∀ i j, i < W → j < H → Spec.Within (totalError u 1 (2 ^ (-24 : ℤ)) W H) (rows f W j i) (dct2 W H (gray W maxval raster) i j) :=
    fun i j hi hj => within_shift (hw i j hi hj) (dct2_apart hnear i j)
  have hX := hX l1 rfl
  have hY := hY l2 rfl
  have hsig : (effMethod (some m)).func = .sign := h.sign
  rw [hsig] at hX hY
  have hth := threshold_float (s := s) h.wants.threshold (wantsMethod_mem h.wants.method)
  have E1 := exactList hs.wf.inter_wf h.precise h.exact hX h.unfiltered htu hth h0 r0 (by rw [mul_comm]; exact h.pixels)
    (X := fun y x => dct2 W H (gray W maxval raster) x y) (fun y hy x hx => hsh x y hx hy)
  have E2 := exactList hs.wf.inter_wf h.precise h.exact hY h.unfiltered htu hth w0 r0 h.pixels
    (X := fun x y => dct2 W H (gray W maxval raster) x y) (fun x hx y hy => hsh x y hx hy)
  rw [hrange] at E1 E2
  obtain ⟨i1, k1, _⟩ := E1.parts
  obtain ⟨i2, k2, _⟩ := E2.parts
  exact ⟨ex, w', l1, l2, e1, prints_legible (by rw [k1]; simp) (by rw [k2]; simp) hsu.prints, hsu.code, E1, E2⟩

/-- An entry before the own size can be read. -/
theorem legible_width {l1 l2 : List Res} {t : List UInt8} {r : Res} (hl : Legible vb W H l1 l2 t) (hm : r ∈ l1)
    (hd : r ∈ l1.dropLast) : ListsWidth vb r t := by
  obtain ⟨_, _, h2, h3, h4⟩ := hl
  refine ⟨fun hv => ?_, fun hv => ?_, fun hv => ?_⟩
  · obtain ⟨a, b, x, y, k1, k2, _, k4, _⟩ := h2 hv
    obtain ⟨z, hz, hz'⟩ := left_of_forall₂ k4 (List.mem_map_of_mem hm)
    exact ⟨a, b, x, k1, k2, z, hz, hz'⟩
  · obtain ⟨a, b, x, y, k1, k2, _, k4, _⟩ := h3 hv
    obtain ⟨z, hz, hz'⟩ := left_of_forall₂ k4 hm
    exact ⟨a, b, x, k1, k2, z, hz, hz'⟩
  · obtain ⟨_, _, _, _, g, b, rows, _, _, k1, k2, k3⟩ := h4 hv
    obtain ⟨i, hi, hN⟩ := List.getElem_of_mem hd
    have hir : i < rows.length := by omega
    have hrow := k3 i rows[i] (List.getElem?_eq_getElem hir)
    rw [List.getElem?_eq_getElem hi, hN] at hrow
    have hne : ¬ (l1.dropLast = [] ∧ l2.dropLast = []) := fun h => by rw [h.1] at hd; cases hd
    rw [if_neg hne, if_neg hne] at k1
    generalize hr : rows[i] = row at hrow
    have hmem : row ∈ rows := hr ▸ List.getElem_mem hir
    generalize l2.dropLast[i]? = o at hrow
    cases hrow with
    | both c1 c2 => exact ⟨_, _, _, _, k1, List.mem_append_right _ (List.mem_cons_of_mem _ hmem), c1, rfl⟩
    | width c1 => exact ⟨_, _, _, [], k1, List.mem_append_right _ (List.mem_cons_of_mem _ hmem), c1, (List.append_nil _).symm⟩
where
  left_of_forall₂ {α β : Type} {R : α → β → Prop} {l : List α} {l' : List β} (h : List.Forall₂ R l l') {a : α} (ha : a ∈ l) :
      ∃ b ∈ l', R a b := by
    obtain ⟨b, hb, hr⟩ := C57_sign.forall₂_right h.flip a ha
    exact ⟨b, hb, hr⟩

theorem legible_height {l1 l2 : List Res} {t : List UInt8} {r : Res} (hl : Legible vb W H l1 l2 t) (hm : r ∈ l2)
    (hd : r ∈ l2.dropLast) : ListsHeight vb r t := by
  obtain ⟨_, _, h2, h3, h4⟩ := hl
  refine ⟨fun hv => ?_, fun hv => ?_, fun hv => ?_⟩
  · obtain ⟨a, b, x, y, k1, _, k3, _, k5⟩ := h2 hv
    obtain ⟨z, hz, hz'⟩ := legible_width.left_of_forall₂ k5 (List.mem_map_of_mem hm)
    exact ⟨a, b, y, k1, k3, z, hz, hz'⟩
  · obtain ⟨a, b, x, y, k1, _, k3, _, k5⟩ := h3 hv
    obtain ⟨z, hz, hz'⟩ := legible_width.left_of_forall₂ k5 hm
    exact ⟨a, b, y, k1, k3, z, hz, hz'⟩
  · obtain ⟨_, _, _, _, g, b, rows, _, _, k1, k2, k3⟩ := h4 hv
    obtain ⟨i, hi, hN⟩ := List.getElem_of_mem hd
    have hir : i < rows.length := by omega
    have hrow := k3 i rows[i] (List.getElem?_eq_getElem hir)
    rw [List.getElem?_eq_getElem hi, hN] at hrow
    have hne : ¬ (l1.dropLast = [] ∧ l2.dropLast = []) := fun h => by rw [h.2] at hd; cases hd
    rw [if_neg hne, if_neg hne] at k1
    generalize hr : rows[i] = row at hrow
    have hmem : row ∈ rows := hr ▸ List.getElem_mem hir
    generalize l1.dropLast[i]? = o at hrow
    cases hrow with
    | both c1 c2 => exact ⟨_, _, _, _, k1, List.mem_append_right _ (List.mem_cons_of_mem _ hmem), c2, rfl⟩
    | height c1 => exact ⟨_, _, _, _, k1, List.mem_append_right _ (List.mem_cons_of_mem _ hmem), c1, rfl⟩

/-- An entry of confidence 1 is not the last one. -/
theorem entry_before {F : Fmt} {d : ℝ} {t : ℚ} {range len n N : ℕ} {X : ℕ → ℕ → ℝ} {l : List Res} (hl : ExactList F d t range len n X l)
    {q : ℚ} (hm : (⟨N, .fin false q⟩ : Res) ∈ l) : (⟨N, .fin false q⟩ : Res) ∈ l.dropLast ∧ l.length ≠ 1 := by
  obtain ⟨init, e, _⟩ := hl.parts
  rw [e] at hm ⊢
  rcases List.mem_append.mp hm with h | h
  · refine ⟨by rw [List.dropLast_concat]; exact h, ?_⟩
    have := List.length_pos_of_mem h
    rw [List.length_append, List.length_singleton]
    omega
  · rw [List.mem_singleton] at h
    cases h

/-- An antisymmetric spectrum speaks for `N` everywhere. -/
theorem share_full {d : ℝ} (hd : 0 < d) {X : ℕ → ℕ → ℝ} {n range N : ℕ} (n0 : 0 < n) (r0 : 0 < range) (hr : range < N) (hX : Crosses X n N)
    (hc : Clear d X n range N) : share X n range N = 1 := by
  have h : oppositePairs X n range N = n * range := by
    classical
    unfold oppositePairs
    rw [Finset.filter_true_of_mem, Finset.card_product, Finset.card_range, Nat.card_Icc, Nat.add_sub_cancel]
    rintro ⟨y, i⟩ hp
    simp only [Finset.mem_product, Finset.mem_range, Finset.mem_Icc] at hp
    obtain ⟨hy, i1, i2⟩ := hp
    have cl := hc y hy (N - i) (by omega) (by omega) (by omega)
    obtain ⟨c, c0, hall⟩ := hX.1 i (by omega)
    have hne : X y (N - i) ≠ 0 := by intro h; rw [h, abs_zero] at cl; linarith
    simp only
    rw [hall y hy]
    have := mul_pos c0 (mul_self_pos.mpr hne)
    nlinarith
  unfold share
  rw [h]
  push_cast
  have : (0 : ℚ) < n * range := by positivity
  exact div_self this.ne'

theorem columns_cross {k N : ℕ} (hk : 2 ≤ k) (hN : 0 < N) (hw : RepeatsColumns k (k * N) H raster) :
    Crosses (fun y x => dct2 (k * N) H (gray (k * N) maxval raster) x y) H N := by
  have hx : ∀ i j, i < k * N → j < H →
      gray (k * N) maxval raster i j = (fun a j => gray (k * N) maxval raster (a * k) j) (i / k) j := by
    intro i j hi hj
    show gray _ _ _ _ _ = gray _ _ _ _ _
    unfold gray
    rw [hw i j hi hj]
  constructor
  · intro j hj
    obtain ⟨c, hc, hall⟩ := dct2_wide (x := gray (k * N) maxval raster) (o := fun a j => gray (k * N) maxval raster (a * k) j) hN hk hx hj
    exact ⟨c, hc, fun y _ => hall y⟩
  · intro y _
    exact dct2_wide_zero (x := gray (k * N) maxval raster) (o := fun a j => gray (k * N) maxval raster (a * k) j) hN hk hx y

theorem rows_cross {k N : ℕ} (hk : 2 ≤ k) (hN : 0 < N) (hw : RepeatsRows k W (k * N) raster) :
    Crosses (fun x y => dct2 W (k * N) (gray W maxval raster) x y) W N := by
  have hx : ∀ i j, i < W → j < k * N → gray W maxval raster i j = (fun i a => gray W maxval raster i (a * k)) i (j / k) := by
    intro i j hi hj
    show gray _ _ _ _ _ = gray _ _ _ _ _
    unfold gray
    rw [hw i j hi hj]
  constructor
  · intro j hj
    obtain ⟨c, hc, hall⟩ := dct2_tall (x := gray W maxval raster) (o := fun i a => gray W maxval raster i (a * k)) hN hk hx hj
    exact ⟨c, hc, fun y _ => hall y⟩
  · intro y _
    exact dct2_tall_zero (x := gray W maxval raster) (o := fun i a => gray W maxval raster i (a * k)) hN hk hx y

/-- In the list of exact arithmetic, a size for which everything speaks has confidence 1. -/
theorem _root_.Verif.Spec.ExactList.full {F : Fmt} (hF : F.WF) {d : ℝ} {t : ℚ} {range len n N : ℕ} {X : ℕ → ℕ → ℝ} {l : List Res}
    (hl : ExactList F d t range len n X l) (ht : t ≤ 1) (h1 : range ≤ N) (h2 : N + range < len) (hc : Clear d X n range N)
    (hs : share X n range N = 1) : (⟨N, .fin false 1⟩ : Res) ∈ l := by
  rw [hl.entries N h1 h2 hc, hs, F.rnd_one hF, binary32.rnd_one binary32_wf]
  exact ⟨rfl, ht⟩

theorem Asked.range_pos (h : Asked s io v opts input m p w W H vb maxval raster u) : 0 < p.range := by
  exact (valid_params h.build h.wants p rfl).range_pos

theorem Asked.threshold_le (h : Asked s io v opts input m p w W H vb maxval raster u) : val (effParams s.cfg m (some p)).threshold ≤ 1 := by
  obtain ⟨b, q, e, _, q1⟩ := (effParams_good h.build.wf (wantsMethod_mem h.wants.method) (valid_params h.build h.wants)).2.1
  rw [e]
  exact q1

theorem Asked.error_pos (h : Asked s io v opts input m p w W H vb maxval raster u) : 0 < totalError u 1 (2 ^ (-24 : ℤ)) W H := by
  have h1 := h.accurate.unit
  have h2 : (0 : ℝ) < ((pow2 (-s.cfg.kiss.p) : ℚ) : ℝ) := by exact_mod_cast pow2_pos _
  obtain ⟨w0, h0, _⟩ := h.limits
  have w0' : (0 : ℝ) < W := by exact_mod_cast w0
  have h0' : (0 : ℝ) < H := by exact_mod_cast h0
  have : (0 : ℝ) ≤ u := by linarith
  unfold totalError errorBound
  positivity

/-- **C79** A PGM whose columns repeat `k` times, as after enlarging by pixel repetition, is reported as enlarged from its original width, with
full confidence; in the same way for rows. -/
theorem C79_enlarged (h : Asked s io v opts input m p w W H vb maxval raster u) (hfuel : 1 < fuel) {k N : ℕ} (hk : 2 ≤ k) (hN : p.range < N) :
    (W = k * N → RepeatsColumns k W H raster →
      Clear (totalError u 1 (2 ^ (-24 : ℤ)) W H) (fun y x => dct2 W H (gray W maxval raster) x y) H p.range N →
      ∃ ex w', cliMain s io v fuel opts (some input) w = some (ex, w') ∧ ex.code = 0 ∧ ShowsWidth vb N (cliText ex.shown)) ∧
    (H = k * N → RepeatsRows k W H raster →
      Clear (totalError u 1 (2 ^ (-24 : ℤ)) W H) (fun x y => dct2 W H (gray W maxval raster) x y) W p.range N →
      ∃ ex w', cliMain s io v fuel opts (some input) w = some (ex, w') ∧ ex.code = 0 ∧ ShowsHeight vb N (cliText ex.shown)) := by
  obtain ⟨ex, w', l1, l2, e1, e2, e3, e4, e5⟩ := C79_lists h hfuel
  have hr := h.range_pos
  obtain ⟨w0, h0, _⟩ := h.limits
  constructor
  · intro hW hrep hcl
    have hs := share_full h.error_pos h0 hr hN (by subst hW; exact columns_cross hk (by omega) hrep) hcl
    have hm := e4.full h.build.wf.inter_wf h.threshold_le hN.le (by rw [hW]; nlinarith) hcl hs
    obtain ⟨hd, h1⟩ := entry_before e4 hm
    exact ⟨ex, w', e1, by rw [e3, if_neg (fun h => h1 h.2.1)], legible_width e2 hm hd⟩
  · intro hW hrep hcl
    have hs := share_full h.error_pos w0 hr hN (by subst hW; exact rows_cross hk (by omega) hrep) hcl
    have hm := e5.full h.build.wf.inter_wf h.threshold_le hN.le (by rw [hW]; nlinarith) hcl hs
    obtain ⟨hd, h1⟩ := entry_before e5 hm
    exact ⟨ex, w', e1, by rw [e3, if_neg (fun h => h1 h.2.2)], legible_height e2 hm hd⟩

/-- If the share of opposite pairs is below the threshold at every size, exact arithmetic lists the length only. -/
theorem _root_.Verif.Spec.ExactList.alone {F : Fmt} {d : ℝ} {t : ℚ} {range len n : ℕ} {X : ℕ → ℕ → ℝ} {l : List Res} (hl : ExactList F d t range len n X l)
    (h : ∀ N, range ≤ N → N + range < len → Clear d X n range N ∧ F.rnd (share X n range N) < t) : l = [⟨len, .fin true (-1)⟩] := by
  obtain ⟨init, e, _, h2⟩ := hl.parts
  cases init with
  | nil => rw [e]; rfl
  | cons r rs =>
    exfalso
    obtain ⟨a, b⟩ := h2 r (by simp)
    obtain ⟨c1, c2⟩ := h _ a b
    have := ((hl.entries r.index a b c1 r.confidence).mp (by rw [e]; simp)).2
    exact absurd c2 (not_lt.mpr this)

/-- **C79** A PGM with too few opposite signs about every size is reported as not upsampled. -/
theorem C79_original (h : Asked s io v opts input m p w W H vb maxval raster u) (hfuel : 1 < fuel)
    (hX : ∀ N, p.range ≤ N → N + p.range < W →
      Clear (totalError u 1 (2 ^ (-24 : ℤ)) W H) (fun y x => dct2 W H (gray W maxval raster) x y) H p.range N ∧
      s.cfg.inter.rnd (share (fun y x => dct2 W H (gray W maxval raster) x y) H p.range N) < val (effParams s.cfg m (some p)).threshold)
    (hY : ∀ N, p.range ≤ N → N + p.range < H →
      Clear (totalError u 1 (2 ^ (-24 : ℤ)) W H) (fun x y => dct2 W H (gray W maxval raster) x y) W p.range N ∧
      s.cfg.inter.rnd (share (fun x y => dct2 W H (gray W maxval raster) x y) W p.range N) < val (effParams s.cfg m (some p)).threshold) :
    ∃ ex w', cliMain s io v fuel opts (some input) w = some (ex, w') ∧ ex.code = (if vb = 0 then 1 else 0) ∧
      ShowsOriginal vb W H (cliText ex.shown) := by
  obtain ⟨ex, w', l1, l2, e1, e2, e3, e4, e5⟩ := C79_lists h hfuel
  obtain rfl := e4.alone hX
  obtain rfl := e5.alone hY
  refine ⟨ex, w', e1, by rw [e3]; simp, ?_⟩
  obtain ⟨_, k1, k2, k3, k4⟩ := e2
  refine ⟨fun hv => ?_, fun hv => ?_, fun hv => ?_, fun hv => ?_⟩
  · obtain ⟨a, b, l, ha, hb, h1, h2⟩ := k1 hv
    cases ha; cases hb
    exact ⟨l, h1, h2⟩
  · obtain ⟨a, b, x, y, h1, h2, h3, h4, h5⟩ := k2 hv
    cases h4 with | cons n1 t1 => cases t1; cases h5 with | cons n2 t2 => cases t2; exact ⟨_, _, by simpa [h2.1, h3.1] using h1, n1, n2⟩
  · obtain ⟨a, b, x, y, h1, h2, h3, h4, h5⟩ := k3 hv
    cases h4 with | cons n1 t1 => cases t1; cases h5 with | cons n2 t2 => cases t2; exact ⟨_, _, by simpa [h2.1, h3.1] using h1, n1, n2⟩
  · obtain ⟨a, b, ha, hb, g, x, rows, h1, h2, h3, _⟩ := k4 hv
    cases ha; cases hb
    exact ⟨g, x, by simpa using h3, h1, h2⟩

/-- An entry above all others is the first. -/
theorem _root_.Verif.Spec.ExactList.first {F : Fmt} {d : ℝ} {t : ℚ} {range len n N : ℕ} {X : ℕ → ℕ → ℝ} {l : List Res} (hl : ExactList F d t range len n X l)
    {q : ℚ} (hm : (⟨N, .fin false q⟩ : Res) ∈ l) (hq : 0 ≤ q)
    (h : ∀ M, range ≤ M → M + range < len → M ≠ N → Clear d X n range M ∧ binary32.rnd (F.rnd (share X n range M)) < q) :
    ∃ r, l.head? = some r ∧ r.index = N := by
  obtain ⟨init, e, _, h2⟩ := hl.parts
  cases l with
  | nil => cases hm
  | cons r rs =>
    refine ⟨r, rfl, ?_⟩
    by_contra hne
    have hmr : (⟨N, .fin false q⟩ : Res) ∈ rs := by
      rcases List.mem_cons.mp hm with h | h
      · exact absurd (by rw [← h]) hne
      · exact h
    have hge : r.confidence.ge (.fin false q) = true := (List.pairwise_cons.mp hl.sorted).1 _ hmr
    have hr : r ∈ init ++ [⟨len, .fin true (-1)⟩] := by rw [← e]; simp
    rcases List.mem_append.mp hr with hr | hr
    · obtain ⟨a, b⟩ := h2 r hr
      obtain ⟨c1, c2⟩ := h _ a b hne
      have := ((hl.entries r.index a b c1 r.confidence).mp (by simp)).1
      rw [this] at hge
      simp only [Fl.ge, Fl.lt, Bool.not_eq_true', decide_eq_false_iff_not, not_lt] at hge
      linarith
    · rw [List.mem_singleton] at hr
      rw [hr] at hge
      simp only [Fl.ge, Fl.lt, Bool.not_eq_true', decide_eq_false_iff_not, not_lt] at hge
      linarith

/-- The best guess is first. -/
theorem prevails_first {F : Fmt} {d : ℝ} {t : ℚ} {range len n N : ℕ} {X : ℕ → ℕ → ℝ} {l : List Res} (hl : ExactList F d t range len n X l)
    (h : Prevails F d t range len n X N) : ∃ r, l.head? = some r ∧ r.index = N := by
  obtain ⟨hc, ⟨h1, h2, h3, h4⟩ | ⟨rfl, h1⟩⟩ := h
  · have hs : 0 ≤ share X n range N := by unfold share; positivity
    exact hl.first ((hl.entries N h1 h2 (hc N h1 h2) _).mpr ⟨rfl, h3⟩) (binary32.rnd_nonneg (F.rnd_nonneg hs))
      (fun M a b c => ⟨hc M a b, h4 M a b c⟩)
  · rw [hl.alone (fun M a b => ⟨hc M a b, h1 M a b⟩)]
    exact ⟨_, rfl, rfl⟩

/-- **C79** The best guess printed is the one of exact arithmetic. -/
theorem C79_best (h : Asked s io v opts input m p w W H vb maxval raster u) (hfuel : 1 < fuel) {a b : ℕ}
    (hX : Prevails s.cfg.inter (totalError u 1 (2 ^ (-24 : ℤ)) W H) (val (effParams s.cfg m (some p)).threshold) p.range W H
      (fun y x => dct2 W H (gray W maxval raster) x y) a)
    (hY : Prevails s.cfg.inter (totalError u 1 (2 ^ (-24 : ℤ)) W H) (val (effParams s.cfg m (some p)).threshold) p.range H W
      (fun x y => dct2 W H (gray W maxval raster) x y) b) :
    ∃ ex w', cliMain s io v fuel opts (some input) w = some (ex, w') ∧ ShowsBest vb a b (cliText ex.shown) := by
  obtain ⟨ex, w', l1, l2, e1, e2, _, e4, e5⟩ := C79_lists h hfuel
  obtain ⟨r1, f1, rfl⟩ := prevails_first e4 hX
  obtain ⟨r2, f2, rfl⟩ := prevails_first e5 hY
  refine ⟨ex, w', e1, ?_⟩
  obtain ⟨_, k1, k2, k3, k4⟩ := e2
  obtain ⟨t1, rfl⟩ : ∃ t, l1 = r1 :: t := by cases l1 with | nil => cases f1 | cons a t => cases f1; exact ⟨t, rfl⟩
  obtain ⟨t2, rfl⟩ : ∃ t, l2 = r2 :: t := by cases l2 with | nil => cases f2 | cons a t => cases f2; exact ⟨t, rfl⟩
  refine ⟨fun hv => ?_, fun hv => ?_, fun hv => ?_, fun hv => ?_⟩
  · obtain ⟨a, b, l, ha, hb, h1, h2⟩ := k1 hv
    cases ha; cases hb
    exact ⟨l, h1, h2⟩
  · obtain ⟨a, b, x, y, h1, h2, h3, h4, h5⟩ := k2 hv
    cases h4 with | cons n1 _ => cases h5 with | cons n2 _ => exact ⟨_, _, _, _, by rw [h2.1, h3.1] at h1; exact h1, n1, n2⟩
  · obtain ⟨a, b, x, y, h1, h2, h3, h4, h5⟩ := k3 hv
    cases h4 with
    | cons n1 _ =>
      cases h5 with
      | cons n2 _ =>
        obtain ⟨a1, b1, rfl, n1, _⟩ := n1
        obtain ⟨a2, b2, rfl, n2, _⟩ := n2
        refine ⟨_, _, a1, a2, by rw [h2.1, h3.1] at h1; simpa using h1, n1, n2⟩
  · obtain ⟨a, b, ha, hb, g, x, rows, h1, h2, h3, _⟩ := k4 hv
    cases ha; cases hb
    exact ⟨_, x, _, _, h3, h2⟩

/-! ## Examples: rows of four samples -/

/-- The spectrum of a row of four samples. -/
theorem spectrum4 (x : ℕ → ℕ → ℝ) :
    dct2 4 1 x 0 0 = 4 * (x 0 0 + x 1 0 + x 2 0 + x 3 0) ∧
    dct2 4 1 x 1 0 = 4 * (Real.cos (Real.pi / 8) * (x 0 0 - x 3 0) + Real.sin (Real.pi / 8) * (x 1 0 - x 2 0)) ∧
    dct2 4 1 x 2 0 = 4 * (√2 / 2 * (x 0 0 - x 1 0 - x 2 0 + x 3 0)) ∧
    dct2 4 1 x 3 0 = 4 * (Real.sin (Real.pi / 8) * (x 0 0 - x 3 0) - Real.cos (Real.pi / 8) * (x 1 0 - x 2 0)) := by
  have hd : ∀ u : ℕ, dct2 4 1 x u 0 = 4 * (x 0 0 * Real.cos (Real.pi * u / 8) + x 1 0 * Real.cos (3 * Real.pi * u / 8) +
      x 2 0 * Real.cos (5 * Real.pi * u / 8) + x 3 0 * Real.cos (7 * Real.pi * u / 8)) := by
    intro u
    unfold dct2 dct
    simp only [Finset.sum_range_succ, Finset.sum_range_zero]
    norm_num
    have e1 : Real.pi * (1 / 2) * u / 4 = Real.pi * u / 8 := by ring
    have e2 : Real.pi * (1 + 1 / 2) * u / 4 = 3 * Real.pi * u / 8 := by ring
    have e3 : Real.pi * (2 + 1 / 2) * u / 4 = 5 * Real.pi * u / 8 := by ring
    have e4 : Real.pi * (3 + 1 / 2) * u / 4 = 7 * Real.pi * u / 8 := by ring
    norm_num at e1 e2 e3 e4
    rw [e1, e2, e3, e4]
    ring
  have c3 : Real.cos (3 * Real.pi / 8) = Real.sin (Real.pi / 8) := by
    rw [← Real.cos_pi_div_two_sub]; congr 1; ring
  have c5 : Real.cos (5 * Real.pi / 8) = -Real.sin (Real.pi / 8) := by
    rw [← c3, ← Real.cos_pi_sub]; congr 1; ring
  have c7 : Real.cos (7 * Real.pi / 8) = -Real.cos (Real.pi / 8) := by
    rw [← Real.cos_pi_sub]; congr 1; ring
  have c9 : Real.cos (9 * Real.pi / 8) = -Real.cos (Real.pi / 8) := by
    rw [← Real.cos_add_pi]; congr 1; ring
  have c15 : Real.cos (15 * Real.pi / 8) = Real.cos (Real.pi / 8) := by
    rw [← Real.cos_two_pi_sub]; congr 1; ring
  have c21 : Real.cos (21 * Real.pi / 8) = -Real.sin (Real.pi / 8) := by
    rw [← c5, ← Real.cos_add_two_pi (5 * Real.pi / 8)]; congr 1; ring
  have d1 : Real.cos (2 * Real.pi / 8) = √2 / 2 := by rw [← Real.cos_pi_div_four]; congr 1; ring
  have d3 : Real.cos (6 * Real.pi / 8) = -(√2 / 2) := by rw [← Real.cos_pi_div_four, ← Real.cos_pi_sub]; congr 1; ring
  have d5 : Real.cos (10 * Real.pi / 8) = -(√2 / 2) := by rw [← Real.cos_pi_div_four, ← Real.cos_add_pi]; congr 1; ring
  have d7 : Real.cos (14 * Real.pi / 8) = √2 / 2 := by rw [← Real.cos_pi_div_four, ← Real.cos_two_pi_sub]; congr 1; ring
  refine ⟨?_, ?_, ?_, ?_⟩
  · rw [hd]; simp
  · rw [hd]
    have e1 : Real.pi * (1 : ℕ) / 8 = Real.pi / 8 := by push_cast; ring
    have e2 : 3 * Real.pi * (1 : ℕ) / 8 = 3 * Real.pi / 8 := by push_cast; ring
    have e3 : 5 * Real.pi * (1 : ℕ) / 8 = 5 * Real.pi / 8 := by push_cast; ring
    have e4 : 7 * Real.pi * (1 : ℕ) / 8 = 7 * Real.pi / 8 := by push_cast; ring
    rw [e1, e2, e3, e4, c3, c5, c7]; ring
  · rw [hd]
    have e1 : Real.pi * (2 : ℕ) / 8 = 2 * Real.pi / 8 := by push_cast; ring
    have e2 : 3 * Real.pi * (2 : ℕ) / 8 = 6 * Real.pi / 8 := by push_cast; ring
    have e3 : 5 * Real.pi * (2 : ℕ) / 8 = 10 * Real.pi / 8 := by push_cast; ring
    have e4 : 7 * Real.pi * (2 : ℕ) / 8 = 14 * Real.pi / 8 := by push_cast; ring
    rw [e1, e2, e3, e4, d1, d3, d5, d7]; ring
  · rw [hd]
    have e1 : Real.pi * (3 : ℕ) / 8 = 3 * Real.pi / 8 := by push_cast; ring
    have e2 : 3 * Real.pi * (3 : ℕ) / 8 = 9 * Real.pi / 8 := by push_cast; ring
    have e3 : 5 * Real.pi * (3 : ℕ) / 8 = 15 * Real.pi / 8 := by push_cast; ring
    have e4 : 7 * Real.pi * (3 : ℕ) / 8 = 21 * Real.pi / 8 := by push_cast; ring
    rw [e1, e2, e3, e4, c3, c9, c15, c21]; ring

theorem eighth : (0.92 : ℝ) < Real.cos (Real.pi / 8) ∧ Real.cos (Real.pi / 8) < 0.93 ∧ 0.38 < Real.sin (Real.pi / 8) ∧ Real.sin (Real.pi / 8) < 0.39 ∧
    (1.414 : ℝ) < √2 := by
  have s2a : (1.414 : ℝ) < √2 := by rw [Real.lt_sqrt (by norm_num)]; norm_num
  have s2b : √2 < (1.415 : ℝ) := by rw [Real.sqrt_lt' (by norm_num)]; norm_num
  refine ⟨?_, ?_, ?_, ?_, s2a⟩
  · rw [Real.cos_pi_div_eight]
    have : (1.84 : ℝ) < √(2 + √2) := by rw [Real.lt_sqrt (by norm_num)]; norm_num; linarith
    linarith
  · rw [Real.cos_pi_div_eight]
    have : √(2 + √2) < (1.86 : ℝ) := by rw [Real.sqrt_lt' (by norm_num)]; norm_num; linarith
    linarith
  · rw [Real.sin_pi_div_eight]
    have : (0.76 : ℝ) < √(2 - √2) := by rw [Real.lt_sqrt (by norm_num)]; norm_num; linarith
    linarith
  · rw [Real.sin_pi_div_eight]
    have : √(2 - √2) < (0.78 : ℝ) := by rw [Real.sqrt_lt' (by norm_num)]; norm_num; linarith
    linarith

/-- A file with a row of four samples between 0 and 2. -/
def rowFile (raster : List UInt8) : List UInt8 := cs "P5\n4 1 2\n" ++ raster

theorem rowFile_pgm {raster : List UInt8} (h : raster.length = 4) : PgmFile 4 1 2 raster (rowFile raster) := by
  have hh : PgmHead 4 1 2 (cs "P5\n4 1 2\n") := by
    refine PgmHead.mk (s0 := cs "\n") (s1 := []) (nW := cs "4") (s2 := cs " ") (nH := cs "1") (s3 := cs " ") (nM := cs "2") (lines := [])
      (sp := ch '\n') ?_ ?_ ?_ ?_ ?_ ?_ ?_ ?_ ?_ ?_ ?_ ?_ ?_ ?_ <;> (try simp only [Blank, Numeral, Digits, OneLine]) <;> decide
  have := PgmFile.mk (tail := []) hh h
  rwa [List.append_nil] at this

/-- `-v vb -r 1` -/
def rowOpts (vb : String) : List CliOpt := [.v (cs vb), .r (cs "1")]

theorem row_wants (vb : String) (io : Io) (name : List UInt8) : Wants Demo.sysN.cfg io Demo.cliEnv (rowOpts vb) name Demo.sign { defaultParams Demo.sysN.cfg with range := 1 } where
  goes := by
    refine Goes.not_ends (fun b1 o1 a1 code h hend => ?_)
    rcases b1 with _ | ⟨_, _ | ⟨_, b1⟩⟩ <;> simp [rowOpts] at h
    · obtain ⟨rfl, _⟩ := h; cases hend
    · obtain ⟨_, rfl, _⟩ := h; cases hend
  method := Or.inl ⟨rfl, rfl⟩
  threshold := Or.inl ⟨rfl, rfl⟩
  range := Or.inr ⟨cs "1", 1, rfl, Demo.counts_one, show 1 = 1 % ((lp64 .kiss).sizeMax + 1) by decide +kernel, Nat.one_ne_zero⟩
  filter := Or.inl ⟨rfl, rfl⟩
  one := Or.inl rfl

theorem row_asked {raster : List UInt8} (h : raster.length = 4) (hb : ∀ b ∈ raster, b.toNat ≤ 2) {v : String} {vb : ℤ}
    (hv : Verbosity Demo.sysN.cfg (rowOpts v) vb) :
    Asked Demo.sysN (Demo.disk (rowFile raster) true) Demo.cliEnv (rowOpts v) (cs "a.pgm") Demo.sign { defaultParams Demo.sysN.cfg with range := 1 }
      Demo.w0 4 1 vb 2 raster (2 ^ (-24 : ℤ)) where
  build := Demo.lp64_build _ _
  bundled := rfl
  precise := show Precise (lp64 .kiss) from ⟨by decide +kernel, by decide +kernel⟩
  exact := show Exact (lp64 .kiss) 1 from ⟨by decide +kernel, by decide +kernel⟩
  accurate := Demo.sysN_accurate
  moderate := demoN_moderate
  heap := Demo.w0_wf
  memory := fun _ => rfl
  scores := by
    rintro ⟨side, rfl | rfl, h⟩
    · exact absurd (show (lp64 .kiss).sizeMax < 4 * (lp64 .kiss).szInter from h) (by decide +kernel)
    · exact absurd (show (lp64 .kiss).sizeMax < 1 * (lp64 .kiss).szInter from h) (by decide +kernel)
  pixels := show 4 * 1 ≤ 2 ^ (lp64 .kiss).inter.p by decide +kernel
  size := by
    have hc : Demo.sysN.cfg = lp64 .kiss := rfl
    unfold expected
    rw [hc, if_neg (by decide), if_neg (show ¬ (4 * 1 > (lp64 .kiss).pixelMax ∨ 4 * 1 * (lp64 .kiss).szCoeff > (lp64 .kiss).sizeMax ∨
      4 > sideMax (lp64 .kiss) ∨ 1 > sideMax (lp64 .kiss)) by decide +kernel), if_neg (fun h => by cases h.1)]
  limits := show Verif.Within (lp64 .kiss) 4 1 by unfold Verif.Within; decide +kernel
  wants := row_wants _ _ _
  sign := rfl
  unfiltered := rfl
  verbosity := hv
  whole := ⟨rfl, rfl⟩
  reader := ⟨rfl, .byType (ext := cs "pgm") (.suffix (cs "a") (cs "pgm") (by decide) (by decide)) (Or.inr (by decide)) rfl⟩
  file := ⟨_, true, Demo.disk_holds (by decide), rowFile_pgm h⟩
  values := hb

theorem row_error : totalError (2 ^ (-24 : ℤ)) 1 (2 ^ (-24 : ℤ)) 4 1 ≤ 1 / 10 := by
  unfold totalError
  have := demoN_small
  norm_num at this ⊢
  linarith

theorem row_gray (a b c d : UInt8) : gray 4 2 [a, b, c, d] 0 0 = (a.toNat : ℝ) / 2 ∧ gray 4 2 [a, b, c, d] 1 0 = (b.toNat : ℝ) / 2 ∧
    gray 4 2 [a, b, c, d] 2 0 = (c.toNat : ℝ) / 2 ∧ gray 4 2 [a, b, c, d] 3 0 = (d.toNat : ℝ) / 2 := ⟨rfl, rfl, rfl, rfl⟩

theorem row_positions {N : ℕ} (h1 : 1 ≤ N) (h2 : N + 1 < 4) : N = 1 ∨ N = 2 := by omega

/-- What is known about rows of four samples with clear spectra. -/
theorem row_clear {x : ℕ → ℕ → ℝ} {N : ℕ} (h1 : 1 ≤ N) (hl : 1 / 10 ≤ |dct2 4 1 x (N - 1) 0|) (hr : 1 / 10 ≤ |dct2 4 1 x (N + 1) 0|) :
    Clear (totalError (2 ^ (-24 : ℤ)) 1 (2 ^ (-24 : ℤ)) 4 1) (fun v u => dct2 4 1 x u v) 1 1 N := by
  intro y hy i i1 i2 hne
  obtain rfl : y = 0 := by omega
  refine le_trans row_error ?_
  rcases (by omega : i = N - 1 ∨ i = N + 1) with rfl | rfl
  · exact hl
  · exact hr

theorem row_share {x : ℕ → ℕ → ℝ} {N : ℕ} :
    (dct2 4 1 x (N - 1) 0 * dct2 4 1 x (N + 1) 0 < 0 → share (fun v u => dct2 4 1 x u v) 1 1 N = 1) ∧
    (0 < dct2 4 1 x (N - 1) 0 * dct2 4 1 x (N + 1) 0 → share (fun v u => dct2 4 1 x u v) 1 1 N = 0) := by
  classical
  have e : (Finset.range 1 ×ˢ Finset.Icc 1 1 : Finset (ℕ × ℕ)) = {(0, 1)} := rfl
  unfold share oppositePairs
  rw [e]
  constructor
  · intro h
    rw [Finset.filter_singleton, if_pos h]
    norm_num
  · intro h
    rw [Finset.filter_singleton, if_neg (not_lt.mpr h.le)]
    norm_num

theorem verb (v : String) (n : ℕ) (h : Number (cs v) false n) (hn : n ≤ (lp64 .kiss).intMax) : Verbosity Demo.sysN.cfg (rowOpts v) n :=
  Or.inr ⟨cs v, false, n, rfl, h, hn, rfl⟩

/-- The hypotheses of C79 for enlarged images can be met: two columns, doubled. -/
example : ∃ ex w', cliMain Demo.sysN (Demo.disk (rowFile [2, 2, 0, 0]) true) Demo.cliEnv 2 (rowOpts "3") (some (cs "a.pgm")) Demo.w0 = some (ex, w') ∧
    ex.code = 0 ∧ ShowsWidth 3 2 (cliText ex.shown) := by
  have h := row_asked (raster := [2, 2, 0, 0]) rfl (by decide) (verb "3" 3 (number_iff.mpr ⟨by decide, by decide, by decide⟩) (by decide +kernel))
  obtain ⟨ca, cb, sa, sb, _⟩ := eighth
  obtain ⟨_, X1, _, X3⟩ := spectrum4 (gray 4 2 [2, 2, 0, 0])
  obtain ⟨g0, g1, g2, g3⟩ := row_gray 2 2 0 0
  rw [g0, g1, g2, g3] at X1 X3
  have e2 : ((2 : UInt8).toNat : ℝ) = 2 := by norm_num [show (2 : UInt8).toNat = 2 from rfl]
  have e0 : ((0 : UInt8).toNat : ℝ) = 0 := by norm_num
  rw [e2, e0] at X1 X3
  refine (C79_enlarged h (by norm_num) (k := 2) (N := 2) le_rfl (by decide)).1 rfl ?_ (row_clear (by norm_num) ?_ ?_)
  · intro i j hi hj
    obtain rfl : j = 0 := by omega
    interval_cases i <;> rfl
  · rw [X1, le_abs]; left; linarith
  · rw [X3, le_abs]; right; linarith

/-- The hypotheses of C79 for best guesses can be met: two columns, interpolated. -/
example : ∃ ex w', cliMain Demo.sysN (Demo.disk (rowFile [2, 1, 0, 0]) true) Demo.cliEnv 2 (rowOpts "1") (some (cs "a.pgm")) Demo.w0 = some (ex, w') ∧
    ShowsBest 1 2 1 (cliText ex.shown) := by
  have h := row_asked (raster := [2, 1, 0, 0]) rfl (by decide) (verb "1" 1 (number_iff.mpr ⟨by decide, by decide, by decide⟩) (by decide +kernel))
  obtain ⟨ca, cb, sa, sb, r⟩ := eighth
  obtain ⟨X0, X1, X2, X3⟩ := spectrum4 (gray 4 2 [2, 1, 0, 0])
  obtain ⟨g0, g1, g2, g3⟩ := row_gray 2 1 0 0
  rw [g0, g1, g2, g3] at X0 X1 X2 X3
  have e2 : ((2 : UInt8).toNat : ℝ) = 2 := by norm_num [show (2 : UInt8).toNat = 2 from rfl]
  have e1 : ((1 : UInt8).toNat : ℝ) = 1 := by norm_num [show (1 : UInt8).toNat = 1 from rfl]
  have e0 : ((0 : UInt8).toNat : ℝ) = 0 := by norm_num
  rw [e2, e1, e0] at X0 X1 X2 X3
  have Y0 : 1 / 10 < dct2 4 1 (gray 4 2 [2, 1, 0, 0]) 0 0 := by rw [X0]; norm_num
  have Y1 : 1 / 10 < dct2 4 1 (gray 4 2 [2, 1, 0, 0]) 1 0 := by rw [X1]; linarith
  have Y2 : 1 / 10 < dct2 4 1 (gray 4 2 [2, 1, 0, 0]) 2 0 := by rw [X2]; linarith
  have Y3 : dct2 4 1 (gray 4 2 [2, 1, 0, 0]) 3 0 < -1 / 10 := by rw [X3]; linarith
  have s1 : share (fun v u => dct2 4 1 (gray 4 2 [2, 1, 0, 0]) u v) 1 1 1 = 0 := row_share.2 (mul_pos (by linarith) (by linarith))
  have s2 : share (fun v u => dct2 4 1 (gray 4 2 [2, 1, 0, 0]) u v) 1 1 2 = 1 := row_share.1 (by nlinarith)
  refine C79_best h (by norm_num) ⟨fun M a b => ?_, Or.inl ⟨by decide, by decide, ?_, fun M a b hne => ?_⟩⟩
    ⟨fun M a b => by have : 1 ≤ M := a; omega, Or.inr ⟨rfl, fun M a b => by have : 1 ≤ M := a; omega⟩⟩
  · rcases row_positions a b with rfl | rfl
    · exact row_clear le_rfl (le_abs.mpr (Or.inl Y0.le)) (le_abs.mpr (Or.inl Y2.le))
    · exact row_clear (by norm_num) (le_abs.mpr (Or.inl Y1.le)) (le_abs.mpr (Or.inr (by linarith)))
  · show _ ≤ (lp64 .kiss).inter.rnd (share (fun v u => dct2 4 1 (gray 4 2 [2, 1, 0, 0]) u v) 1 1 2)
    rw [s2]
    show val (effParams (lp64 .kiss) Demo.sign (some { defaultParams (lp64 .kiss) with range := 1 })).threshold ≤ _
    decide +kernel
  · rcases row_positions a b with rfl | rfl
    · show binary32.rnd ((lp64 .kiss).inter.rnd (share (fun v u => dct2 4 1 (gray 4 2 [2, 1, 0, 0]) u v) 1 1 1)) <
        binary32.rnd ((lp64 .kiss).inter.rnd (share (fun v u => dct2 4 1 (gray 4 2 [2, 1, 0, 0]) u v) 1 1 2))
      rw [s1, s2]
      decide +kernel
    · exact absurd rfl hne

/-- The hypotheses of C79 for originals can be met. -/
example : ∃ ex w', cliMain Demo.sysN (Demo.disk (rowFile [2, 0, 0, 0]) true) Demo.cliEnv 2 (rowOpts "0") (some (cs "a.pgm")) Demo.w0 = some (ex, w') ∧
    ex.code = 1 ∧ ShowsOriginal 0 4 1 (cliText ex.shown) := by
  have h := row_asked (raster := [2, 0, 0, 0]) rfl (by decide) (verb "0" 0 (number_iff.mpr ⟨by decide, by decide, by decide⟩) (by decide +kernel))
  obtain ⟨ca, cb, sa, sb, r⟩ := eighth
  obtain ⟨X0, X1, X2, X3⟩ := spectrum4 (gray 4 2 [2, 0, 0, 0])
  obtain ⟨g0, g1, g2, g3⟩ := row_gray 2 0 0 0
  rw [g0, g1, g2, g3] at X0 X1 X2 X3
  have e2 : ((2 : UInt8).toNat : ℝ) = 2 := by norm_num [show (2 : UInt8).toNat = 2 from rfl]
  have e0 : ((0 : UInt8).toNat : ℝ) = 0 := by norm_num
  rw [e2, e0] at X0 X1 X2 X3
  have Y0 : 1 / 10 < dct2 4 1 (gray 4 2 [2, 0, 0, 0]) 0 0 := by rw [X0]; norm_num
  have Y1 : 1 / 10 < dct2 4 1 (gray 4 2 [2, 0, 0, 0]) 1 0 := by rw [X1]; linarith
  have Y2 : 1 / 10 < dct2 4 1 (gray 4 2 [2, 0, 0, 0]) 2 0 := by rw [X2]; linarith
  have Y3 : 1 / 10 < dct2 4 1 (gray 4 2 [2, 0, 0, 0]) 3 0 := by rw [X3]; linarith
  have hz : ∀ N, share (fun v u => dct2 4 1 (gray 4 2 [2, 0, 0, 0]) u v) 1 1 N = 0 →
      (lp64 .kiss).inter.rnd (share (fun v u => dct2 4 1 (gray 4 2 [2, 0, 0, 0]) u v) 1 1 N) <
        val (effParams (lp64 .kiss) Demo.sign (some { defaultParams (lp64 .kiss) with range := 1 })).threshold := by
    intro N h
    rw [h]
    decide +kernel
  refine C79_original h (by norm_num) (fun N a b => ?_) (fun N a b => by have : 1 ≤ N := a; omega)
  rcases row_positions a b with rfl | rfl
  · exact ⟨row_clear le_rfl (le_abs.mpr (Or.inl Y0.le)) (le_abs.mpr (Or.inl Y2.le)), hz 1 (row_share.2 (mul_pos (by linarith) (by linarith)))⟩
  · exact ⟨row_clear (by norm_num) (le_abs.mpr (Or.inl Y1.le)) (le_abs.mpr (Or.inl Y3.le)), hz 2 (row_share.2 (mul_pos (by linarith) (by linarith)))⟩

end Verif.Props
