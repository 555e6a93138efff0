import Verif.Props.Accuracy
import Verif.Props.Interpolate
import Verif.Proofs.Mirror

/-! # Orientation, contrast and brightness do not matter (C78) -/

namespace Verif.Props

open Spec

variable {s : Sys} {m : Option Method} {p : Option Params} {w h : ℕ} {ev ev' : List (Call × Obs)} {a a' : Analysis}
  {rw rh rw' rh' : Option (List Res)} {cw ch cw' ch' : ℕ}

/-- A position with the same frame scores in two analyses is reported alike. -/
theorem listed_same {d : Detect} {q : Params} {len n x : ℕ} {g g' : List Fl → ℕ → ℕ → Fl} {fs fs' : List (List Fl)} {l l' : List Res}
    (hl : Listed s d q len g n fs l) (hl' : Listed s d q len g' n fs' l') (hx : x < len)
    (hsc : List.Forall₂ (fun f f' => frameScore s d (g f) n q.range x = frameScore s d (g' f') n q.range x) fs fs') (c : Fl) :
    (⟨x, c⟩ : Res) ∈ l ↔ ⟨x, c⟩ ∈ l' := by
  obtain ⟨init, h1, _, h3⟩ := hl.parts
  obtain ⟨init', h1', _, h3'⟩ := hl'.parts
  have e : meanAt s d g n q.range fs x = meanAt s d g' n q.range fs' x := by
    unfold meanAt
    rw [total_congr hsc, hsc.length_eq]
  have hne : (⟨x, c⟩ : Res) ≠ sentinel len := by
    intro h
    have : x = len := congrArg Res.index h
    omega
  rw [h1, h1']
  simp only [List.mem_append, List.mem_singleton, hne, or_false]
  rw [h3, h3', e]

/-- The same frame scores at all positions give the same list. -/
theorem listed_eq {d : Detect} {q : Params} {len n : ℕ} {g g' : List Fl → ℕ → ℕ → Fl} {fs fs' : List (List Fl)} {l l' : List Res}
    (hl : Listed s d q len g n fs l) (hl' : Listed s d q len g' n fs' l') (hlen : fs.length = fs'.length)
    (hsc : ∀ x, q.range ≤ x → x + q.range < len →
      List.Forall₂ (fun f f' => frameScore s d (g f) n q.range x = frameScore s d (g' f') n q.range x) fs fs') : l' = l := by
  rw [hl.eq, hl'.eq, hlen]
  congr 3
  refine List.map_congr_left ?_
  intro k hk
  rw [List.mem_range] at hk
  exact (total_congr (hsc _ (by omega) (by omega))).symm

/-! ## C78 -/

/-- **C78** Exact spectra.  Mirroring a picture, turning it upside down, changing its contrast or brightness or inverting it multiplies its
coefficients, except the first, by one number and by -1 in every other column or row. -/
theorem C78_exact {x y : ℕ → ℕ → ℝ} (hxy : SamePicture w h x y) :
    ∃ c : ℝ, c ≠ 0 ∧ ∃ a b : ℕ, ∀ u v, u < w → v < h → (u ≠ 0 ∨ v ≠ 0) →
      dct2 w h y u v = c * ((-1) ^ (a * u) * (-1) ^ (b * v)) * dct2 w h x u v := same_dct2 hxy

/-- **C78** Sign method.  Let the frames of two analyses show pairwise the same pictures, up to orientation, contrast and brightness.  A
position about which the exact coefficients of both are not smaller than the errors of the computed ones is reported by both, with the
same confidence, or by neither.  Without change of brightness, if this holds for all positions, the lists are the same. -/
theorem C78_sign (hs : Build s) (hm : ValidMethod? m) (hp : ValidParams? s.cfg p) (hsign : (effMethod m).func = .sign)
    (hno : NoOom ev) (hno' : NoOom ev') (hk : (analysed ev).length ≤ s.cfg.sizeMax) (hk' : (analysed ev').length ≤ s.cfg.sizeMax)
    (hr : Returned s m w h p ev a rw cw rh ch) (hr' : Returned s m w h p ev' a' rw' cw' rh' ch')
    {fs fs' : List (List Fl)} (hfs : Spectra s a ev fs) (hfs' : Spectra s a' ev' fs') :
    let range := (effParams s.cfg (effMethod m) p).range
    (∀ l l', rw = some l → rw' = some l' →
      (∀ N, range < N → N + range < w →
        List.Forall₂ (fun f f' => ∃ x x' d d', SamePicture w h x x' ∧
          Computed d (rows f w) (fun v u => dct2 w h x u v) h range N ∧ Clear d (fun v u => dct2 w h x u v) h range N ∧
          Computed d' (rows f' w) (fun v u => dct2 w h x' u v) h range N ∧ Clear d' (fun v u => dct2 w h x' u v) h range N) fs fs' →
        ∀ c, (⟨N, c⟩ : Res) ∈ l ↔ ⟨N, c⟩ ∈ l') ∧
      ((∀ N, range ≤ N → N + range < w →
        List.Forall₂ (fun f f' => ∃ x x' d d', Reoriented w h x x' ∧
          Computed d (rows f w) (fun v u => dct2 w h x u v) h range N ∧ Clear d (fun v u => dct2 w h x u v) h range N ∧
          Computed d' (rows f' w) (fun v u => dct2 w h x' u v) h range N ∧ Clear d' (fun v u => dct2 w h x' u v) h range N) fs fs') →
        fs.length = fs'.length → l' = l)) ∧
    (∀ l l', rh = some l → rh' = some l' →
      (∀ N, range < N → N + range < h →
        List.Forall₂ (fun f f' => ∃ x x' d d', SamePicture w h x x' ∧
          Computed d (cols f w) (fun u v => dct2 w h x u v) w range N ∧ Clear d (fun u v => dct2 w h x u v) w range N ∧
          Computed d' (cols f' w) (fun u v => dct2 w h x' u v) w range N ∧ Clear d' (fun u v => dct2 w h x' u v) w range N) fs fs' →
        ∀ c, (⟨N, c⟩ : Res) ∈ l ↔ ⟨N, c⟩ ∈ l') ∧
      ((∀ N, range ≤ N → N + range < h →
        List.Forall₂ (fun f f' => ∃ x x' d d', Reoriented w h x x' ∧
          Computed d (cols f w) (fun u v => dct2 w h x u v) w range N ∧ Clear d (fun u v => dct2 w h x u v) w range N ∧
          Computed d' (cols f' w) (fun u v => dct2 w h x' u v) w range N ∧ Clear d' (fun u v => dct2 w h x' u v) w range N) fs fs') →
        fs.length = fs'.length → l' = l)) := by
  intro range
  obtain ⟨-, -, hX, hY⟩ := returned_listed hs hm hp hno hk hr hfs
  obtain ⟨-, -, hX', hY'⟩ := returned_listed hs hm hp hno' hk' hr' hfs'
  have score : ∀ {g g' : ℕ → ℕ → Fl} {n N : ℕ}, signMatches g n range N = signMatches g' n range N →
      frameScore s (effMethod m).func g n range N = frameScore s (effMethod m).func g' n range N := by
    intro g g' n N e
    rw [hsign]
    simp only [frameScore, e]
  refine ⟨fun l l' hl hl' => ⟨fun N h1 h2 hall c => listed_same (hX l hl) (hX' l' hl') (by omega) (hall.imp ?_) c,
    fun hall hlen => listed_eq (hX l hl) (hX' l' hl') hlen (fun N h1 h2 => (hall N h1 h2).imp ?_)⟩,
    fun l l' hl hl' => ⟨fun N h1 h2 hall c => listed_same (hY l hl) (hY' l' hl') (by omega) (hall.imp ?_) c,
    fun hall hlen => listed_eq (hY l hl) (hY' l' hl') hlen (fun N h1 h2 => (hall N h1 h2).imp ?_)⟩⟩
  · rintro f f' ⟨x, x', d, d', q0, q1, q2, q3, q4⟩
    exact score (clear_alike (alike_rows q0 h1 h2) h1.le q1 q3 q2 q4)
  · rintro f f' ⟨x, x', d, d', q0, q1, q2, q3, q4⟩
    exact score (clear_alike (alike_rows' q0 h1) h1 q1 q3 q2 q4)
  · rintro f f' ⟨x, x', d, d', q0, q1, q2, q3, q4⟩
    exact score (clear_alike (alike_cols q0 h1 h2) h1.le q1 q3 q2 q4)
  · rintro f f' ⟨x, x', d, d', q0, q1, q2, q3, q4⟩
    exact score (clear_alike (alike_cols' q0 h1) h1 q1 q3 q2 q4)

/-- **C78** All methods but zero crossing: if the spectra of the frames of two analyses are, pairwise, the same up to the signs that
mirroring, turning upside down and inverting change, and are free of NaN, the results are the same. -/
theorem C78_methods (hs : Build s) (hm : ValidMethod? m) (hp : ValidParams? s.cfg p) (hz : (effMethod m).func ≠ .zerox)
    (hno : NoOom ev) (hno' : NoOom ev') (hk : (analysed ev).length ≤ s.cfg.sizeMax)
    (hr : Returned s m w h p ev a rw cw rh ch) (hr' : Returned s m w h p ev' a' rw' cw' rh' ch')
    {fs fs' : List (List Fl)} (hfs : Spectra s a ev fs) (hfs' : Spectra s a' ev' fs')
    (hnan : ∀ f ∈ fs, ∀ u v, u < w → v < h → ∀ b, rows f w v u ≠ .nan b) (hall : List.Forall₂ (Turned w h) fs fs') :
    (∀ l l', rw = some l → rw' = some l' → l' = l) ∧ (∀ l l', rh = some l → rh' = some l' → l' = l) := by
  have hk' : (analysed ev').length ≤ s.cfg.sizeMax := by
    have e1 := hfs.length_eq
    have e2 := hfs'.length_eq
    have e3 := hall.length_eq
    omega
  obtain ⟨-, -, hX, hY⟩ := returned_listed hs hm hp hno hk hr hfs
  obtain ⟨-, -, hX', hY'⟩ := returned_listed hs hm hp hno' hk' hr' hfs'
  have r0 : 0 < (effParams s.cfg (effMethod m) p).range := by
    have hg := returned_got hs hm hp hr
    have := hg.inv.good.range_pos
    rw [hg.inv.params] at this
    exact this
  have hall' : List.Forall₂ (fun f f' => (∀ u v, u < w → v < h → ∀ b, rows f w v u ≠ .nan b) ∧ Turned w h f f') fs fs' := by
    clear hfs hfs' hX hY hX' hY'
    induction hall with
    | nil => exact .nil
    | cons h1 _ ih => exact .cons ⟨hnan _ (by simp), h1⟩ (ih (fun f hf => hnan f (List.mem_cons_of_mem _ hf)))
  constructor
  · refine fun l l' hl hl' => listed_eq (hX l hl) (hX' l' hl') hall.length_eq (fun x h1 h2 => hall'.imp ?_)
    rintro f f' ⟨hn, A, B, C, q⟩
    refine (frameScore_turned r0 h1 (σ := fun y z => xor (A && decide (z % 2 = 1)) (xor (B && decide (y % 2 = 1)) C))
      (fun y hy z _ hz2 => q z y (by omega) hy) ?_ (fun e => absurd e hz) (fun _ y hy z _ hz2 => hn z y (by omega) hy)).symm
    intro y _ i _ hi
    have e : ((x - i) % 2 = 1) ↔ ((x + i) % 2 = 1) := by omega
    simp only [e]
  · refine fun l l' hl hl' => listed_eq (hY l hl) (hY' l' hl') hall.length_eq (fun x h1 h2 => hall'.imp ?_)
    rintro f f' ⟨hn, A, B, C, q⟩
    refine (frameScore_turned r0 h1 (σ := fun y z => xor (A && decide (y % 2 = 1)) (xor (B && decide (z % 2 = 1)) C))
      (fun y hy z _ hz2 => q y z hy (by omega)) ?_ (fun e => absurd e hz) (fun _ y hy z _ hz2 => hn y z hy (by omega))).symm
    intro y _ i _ hi
    have e : ((x - i) % 2 = 1) ↔ ((x + i) % 2 = 1) := by omega
    simp only [e]

/-- **C78** (partial) Zero crossing method: turning pictures upside down or inverting them does not change the widths, mirroring or inverting
them does not change the heights.  Missing: the other way round, which fails (`C78_zerox_fails`). -/
theorem C78_zerox_partial (hs : Build s) (hm : ValidMethod? m) (hp : ValidParams? s.cfg p) (hz : (effMethod m).func = .zerox)
    (hno : NoOom ev) (hno' : NoOom ev') (hk : (analysed ev).length ≤ s.cfg.sizeMax)
    (hr : Returned s m w h p ev a rw cw rh ch) (hr' : Returned s m w h p ev' a' rw' cw' rh' ch')
    {fs fs' : List (List Fl)} (hfs : Spectra s a ev fs) (hfs' : Spectra s a' ev' fs') (hlen : fs.length = fs'.length) :
    (∀ l l', rw = some l → rw' = some l' →
      List.Forall₂ (fun f f' => ∃ b c : Bool, ∀ u v, u < w → v < h → rows f' w v u = turned (xor (b && decide (v % 2 = 1)) c) (rows f w v u)) fs fs' →
      l' = l) ∧
    (∀ l l', rh = some l → rh' = some l' →
      List.Forall₂ (fun f f' => ∃ b c : Bool, ∀ u v, u < w → v < h → rows f' w v u = turned (xor (b && decide (u % 2 = 1)) c) (rows f w v u)) fs fs' →
      l' = l) := by
  have hk' : (analysed ev').length ≤ s.cfg.sizeMax := by
    have e1 := hfs.length_eq
    have e2 := hfs'.length_eq
    omega
  obtain ⟨-, -, hX, hY⟩ := returned_listed hs hm hp hno hk hr hfs
  obtain ⟨-, -, hX', hY'⟩ := returned_listed hs hm hp hno' hk' hr' hfs'
  have hr1 : (effParams s.cfg (effMethod m) p).range = 1 := by
    unfold effParams; simp only; rw [if_pos hz]
  have nomag : (effMethod m).func ≠ .mag := by rw [hz]; exact fun e => by cases e
  constructor
  · refine fun l l' hl hl' hall => listed_eq (hX l hl) (hX' l' hl') hlen (fun x h1 h2 => hall.imp ?_)
    rintro f f' ⟨B, C, q⟩
    exact (frameScore_turned (by omega) h1 (σ := fun y _ => xor (B && decide (y % 2 = 1)) C)
      (fun y hy z _ hz2 => q z y (by omega) hy) (fun _ _ _ _ _ => rfl) (fun _ _ _ => rfl) (fun e => absurd e nomag)).symm
  · refine fun l l' hl hl' hall => listed_eq (hY l hl) (hY' l' hl') hlen (fun x h1 h2 => hall.imp ?_)
    rintro f f' ⟨B, C, q⟩
    exact (frameScore_turned (by omega) h1 (σ := fun y _ => xor (B && decide (y % 2 = 1)) C)
      (fun y hy z _ hz2 => q y z hy (by omega)) (fun _ _ _ _ _ => rfl) (fun _ _ _ => rfl) (fun e => absurd e nomag)).symm

/-- **C78** Sign method with the bundled transform.  Let the samples of the frames of two analyses differ by at most `e` from pictures that
are pairwise the same up to orientation, contrast and brightness.  A position about which the exact coefficients of these pictures are at
least `totalError` is reported by both analyses, with the same confidence, or by neither. -/
theorem C78_bundled (hs : Build s) (hb : s.cfg.backend = .kiss) (hm : ValidMethod? m) (hp : ValidParams? s.cfg p)
    (hsign : (effMethod m).func = .sign) (hno : NoOom ev) (hno' : NoOom ev') (hk : (analysed ev).length ≤ s.cfg.sizeMax)
    (hr : Returned s m w h p ev a rw cw rh ch) (hr' : Returned s m w h p ev' a' rw' cw' rh' ch') {u M e : ℝ} (ha : Accurate s u)
    (hmod : Moderate s u M w h) (hsafe : (Smooth w ∧ Smooth h) ∨ ∀ x ∈ analysed ev ++ analysed ev', Plenty x.1.world) :
    let range := (effParams s.cfg (effMethod m) p).range
    let Pair (c : (ℕ → ℕ → ℝ) → Prop) (x x' : Call × Obs) := ∃ image image', x.1.op = .analyze (some image) ∧ x'.1.op = .analyze (some image') ∧
      Sampled M w h image ∧ Sampled M w h image' ∧ ∃ y y', SamePicture w h y y' ∧ c y ∧ c y' ∧
        (∀ i j, i < w → j < h → |pixel w image i j - y i j| ≤ e) ∧ ∀ i j, i < w → j < h → |pixel w image' i j - y' i j| ≤ e
    (∀ l l', rw = some l → rw' = some l' → ∀ N, range < N → N + range < w →
      List.Forall₂ (Pair (fun y => Clear (totalError u M e w h) (fun v u => dct2 w h y u v) h range N)) (analysed ev) (analysed ev') →
      ∀ c, (⟨N, c⟩ : Res) ∈ l ↔ ⟨N, c⟩ ∈ l') ∧
    (∀ l l', rh = some l → rh' = some l' → ∀ N, range < N → N + range < h →
      List.Forall₂ (Pair (fun y => Clear (totalError u M e w h) (fun u v => dct2 w h y u v) w range N)) (analysed ev) (analysed ev') →
      ∀ c, (⟨N, c⟩ : Res) ∈ l ↔ ⟨N, c⟩ ∈ l') := by
  intro range Pair
  obtain ⟨fs, hfs, -⟩ := (reach_inv hs hm hp hr.1).scores hno
  obtain ⟨fs', hfs', -⟩ := (reach_inv hs hm hp hr'.1).scores hno'
  have hsub : ∀ x ∈ analysed ev, x ∈ ev := fun x hx => (List.mem_filter.mp hx).1
  have hsub' : ∀ x ∈ analysed ev', x ∈ ev' := fun x hx => (List.mem_filter.mp hx).1
  have acc : ∀ C : (ℕ → ℕ → ℝ) → Prop, List.Forall₂ (Pair C) (analysed ev) (analysed ev') →
      List.Forall₂ (fun f f' => ∃ y y', SamePicture w h y y' ∧ C y ∧ C y' ∧
        (∀ i j, i < w → j < h → Within (totalError u M e w h) (rows f w j i) (dct2 w h y i j)) ∧
        ∀ i j, i < w → j < h → Within (totalError u M e w h) (rows f' w j i) (dct2 w h y' i j)) fs fs' := by
    intro C hC
    have h1 := hfs
    have h2 := hfs'
    unfold Spectra at h1 h2
    generalize analysed ev = L at hC h1 hsafe hsub
    generalize analysed ev' = L' at hC h2 hsafe hsub'
    clear hfs hfs' hk
    induction hC generalizing fs fs' with
    | nil => cases h1; cases h2; exact .nil
    | @cons x x' t t' hp' _ ih =>
      cases h1 with
      | @cons _ f _ ft g1 t1 =>
      cases h2 with
      | @cons _ f' _ ft' g2 t2 =>
      have hsafe' : (Smooth w ∧ Smooth h) ∨ ∀ x ∈ t ++ t', Plenty x.1.world :=
        hsafe.imp_right (fun hh y hy => hh y (by rcases List.mem_append.mp hy with hy | hy <;> simp [hy]))
      refine .cons ?_ (ih ft ft' t1 (fun y hy => hsub y (List.mem_cons_of_mem _ hy)) t2 hsafe' (fun y hy => hsub' y (List.mem_cons_of_mem _ hy)))
      obtain ⟨image, image', o1, o2, s1, s2, y, y', q0, q1, q2, q3, q4⟩ := hp'
      have b1 := C62_accuracy hs hb hm hp hr.1 ha hmod (hsub x (by simp)) (hsafe.imp_right (fun hh => hh x (by simp))) o1 s1 g1
      have b2 := C62_accuracy hs hb hm hp hr'.1 ha hmod (hsub' x' (by simp)) (hsafe.imp_right (fun hh => hh x' (by simp))) o2 s2 g2
      exact ⟨y, y', q0, q1, q2, fun i j hi hj => within_shift (b1 i j hi hj) (dct2_apart q3 i j),
        fun i j hi hj => within_shift (b2 i j hi hj) (dct2_apart q4 i j)⟩
  have main : List.Forall₂ (fun _ _ => True) fs fs' → (analysed ev').length ≤ s.cfg.sizeMax := by
    intro hh
    have e1 := hfs.length_eq
    have e2 := hfs'.length_eq
    have e3 := hh.length_eq
    omega
  constructor
  · intro l l' hl hl' N h1 h2 hall
    have hall' := acc _ hall
    have hk' := main (hall'.imp (fun _ _ _ => trivial))
    refine ((C78_sign hs hm hp hsign hno hno' hk hk' hr hr' hfs hfs').1 l l' hl hl').1 N h1 h2 (hall'.imp ?_)
    rintro f f' ⟨y, y', q0, q1, q2, q3, q4⟩
    have h2 : N + range < w := h2
    exact ⟨y, y', _, _, q0, fun v hv i _ hi => q3 i v (lt_of_le_of_lt hi h2) hv, q1, fun v hv i _ hi => q4 i v (lt_of_le_of_lt hi h2) hv, q2⟩
  · intro l l' hl hl' N h1 h2 hall
    have hall' := acc _ hall
    have hk' := main (hall'.imp (fun _ _ _ => trivial))
    refine ((C78_sign hs hm hp hsign hno hno' hk hk' hr hr' hfs hfs').2 l l' hl hl').1 N h1 h2 (hall'.imp ?_)
    rintro f f' ⟨y, y', q0, q1, q2, q3, q4⟩
    have h2 : N + range < h := h2
    exact ⟨y, y', _, _, q0, fun v hv i _ hi => q3 v i hv (lt_of_le_of_lt hi h2), q1, fun v hv i _ hi => q4 v i hv (lt_of_le_of_lt hi h2), q2⟩

/-! ## Witnesses -/

/-- One bright sample in a row of four. -/
def dot1 : List Fl := [0, 1, 0, 0].map (fun q : ℚ => .fin false q)

/-- Its mirror image. -/
def dot2 : List Fl := [0, 0, 1, 0].map (fun q : ℚ => .fin false q)

theorem dots_mirrored : Reoriented 4 1 (pixel 4 dot1) (pixel 4 dot2) := by
  refine .mirror ?_
  intro i j hi hj
  obtain rfl : j = 0 := by omega
  interval_cases i <;> rfl

theorem dots_sampled : Sampled 1 4 1 dot1 ∧ Sampled 1 4 1 dot2 := by
  constructor <;>
  · intro i j hi hj
    obtain rfl : j = 0 := by omega
    interval_cases i
    · exact ⟨false, 0, rfl, by norm_num⟩
    · first | exact ⟨false, 1, rfl, by norm_num⟩ | exact ⟨false, 0, rfl, by norm_num⟩
    · first | exact ⟨false, 1, rfl, by norm_num⟩ | exact ⟨false, 0, rfl, by norm_num⟩
    · exact ⟨false, 0, rfl, by norm_num⟩

/-- The spectra of the two, roughly. -/
theorem dots_spectra :
    (3 / 2 < dct2 4 1 (pixel 4 dot1) 1 0 ∧ dct2 4 1 (pixel 4 dot1) 1 0 < 8 / 5) ∧
    (-3 < dct2 4 1 (pixel 4 dot1) 2 0 ∧ dct2 4 1 (pixel 4 dot1) 2 0 < -5 / 2) ∧
    (-4 < dct2 4 1 (pixel 4 dot1) 3 0 ∧ dct2 4 1 (pixel 4 dot1) 3 0 < -7 / 2) ∧
    ∀ u, dct2 4 1 (pixel 4 dot2) u 0 = (-1) ^ u * dct2 4 1 (pixel 4 dot1) u 0 := by
  have hd : ∀ u, dct2 4 1 (pixel 4 dot1) u 0 = 4 * Real.cos (3 * Real.pi * u / 8) := by
    intro u
    unfold dct2 dct pixel
    simp only [Finset.sum_range_succ, Finset.sum_range_zero, dot1, val]
    norm_num
    have e2 : Real.pi * (1 + 1 / 2) * u / 4 = 3 * Real.pi * u / 8 := by ring
    norm_num at e2
    rw [e2]
    ring
  have s2a : (1.414 : ℝ) < √2 := by rw [Real.lt_sqrt (by norm_num)]; norm_num
  have s2b : √2 < (1.415 : ℝ) := by rw [Real.sqrt_lt' (by norm_num)]; norm_num
  have ca : (0.92 : ℝ) < Real.cos (Real.pi / 8) := by
    rw [Real.cos_pi_div_eight]
    have : (1.84 : ℝ) < √(2 + √2) := by rw [Real.lt_sqrt (by norm_num)]; norm_num; linarith
    linarith
  have cb : Real.cos (Real.pi / 8) < (0.93 : ℝ) := by
    rw [Real.cos_pi_div_eight]
    have : √(2 + √2) < (1.86 : ℝ) := by rw [Real.sqrt_lt' (by norm_num)]; norm_num; linarith
    linarith
  have sa : (0.38 : ℝ) < Real.sin (Real.pi / 8) := by
    rw [Real.sin_pi_div_eight]
    have : (0.76 : ℝ) < √(2 - √2) := by rw [Real.lt_sqrt (by norm_num)]; norm_num; linarith
    linarith
  have sb : Real.sin (Real.pi / 8) < (0.39 : ℝ) := by
    rw [Real.sin_pi_div_eight]
    have : √(2 - √2) < (0.78 : ℝ) := by rw [Real.sqrt_lt' (by norm_num)]; norm_num; linarith
    linarith
  have c3 : Real.cos (3 * Real.pi / 8) = Real.sin (Real.pi / 8) := by
    rw [← Real.cos_pi_div_two_sub]; congr 1; ring
  have c6 : Real.cos (6 * Real.pi / 8) = -(√2 / 2) := by
    rw [← Real.cos_pi_div_four, ← Real.cos_pi_sub]; congr 1; ring
  have c9 : Real.cos (9 * Real.pi / 8) = -Real.cos (Real.pi / 8) := by
    rw [← Real.cos_add_pi]; congr 1; ring
  have X1 : dct2 4 1 (pixel 4 dot1) 1 0 = 4 * Real.sin (Real.pi / 8) := by
    rw [hd, show 3 * Real.pi * (1 : ℕ) / 8 = 3 * Real.pi / 8 by push_cast; ring, c3]
  have X2 : dct2 4 1 (pixel 4 dot1) 2 0 = -(2 * √2) := by
    rw [hd, show 3 * Real.pi * (2 : ℕ) / 8 = 6 * Real.pi / 8 by push_cast; ring, c6]; ring
  have X3 : dct2 4 1 (pixel 4 dot1) 3 0 = -(4 * Real.cos (Real.pi / 8)) := by
    rw [hd, show 3 * Real.pi * (3 : ℕ) / 8 = 9 * Real.pi / 8 by push_cast; ring, c9]; ring
  refine ⟨⟨by rw [X1]; linarith, by rw [X1]; linarith⟩, ⟨by rw [X2]; linarith, by rw [X2]; linarith⟩,
    ⟨by rw [X3]; linarith, by rw [X3]; linarith⟩, fun u => ?_⟩
  rw [dct2_congr (y := fun i j => pixel 4 dot1 (4 - 1 - i) j) (by
    intro i j hi hj
    obtain rfl : j = 0 := by omega
    interval_cases i <;> rfl)]
  unfold dct2
  exact dct_smul ((-1) ^ u) _ _ (fun j _ => dct_mirror (fun i => pixel 4 dot1 i j) u) 0

theorem demoN_small : errorBound (2 ^ (-24 : ℤ)) 1 4 1 ≤ 1 / 1000 := by
  unfold errorBound
  rw [primeSum_four, primeSum_one]
  norm_num

/-- Analysing a row of four samples. -/
theorem demoN_run {m : Option Method} (hm : ValidMethod? m) (hd : (effMethod m).func ≠ .orig)
    (hr1 : (effParams (lp64 .kiss) (effMethod m) (some Demo.paramsHalf)).range = 1) {image : List Fl} (hlen : 4 * 1 ≤ image.length)
    (hfin : AllFinite image (4 * 1)) (him : Sampled 1 4 1 image) :
    ∃ a c lw cw lh ch f, Returned Demo.sysN m 4 1 (some Demo.paramsHalf) [(c, .analyzed RDEOK)] a (some lw) cw (some lh) ch ∧
      c.op = .analyze (some image) ∧ Spectra Demo.sysN a [(c, .analyzed RDEOK)] [f] ∧
      ∀ u < 4, Within (1 / 1000) (rows f 4 0 u) (dct2 4 1 (pixel 4 image) u 0) := by
  have hb : Build Demo.sysN := Demo.lp64_build _ _
  have hv : ValidParams? Demo.sysN.cfg (some Demo.paramsHalf) := demoN_valid
  obtain ⟨a, c, f, lw, lh, cw, ch, hret, hop, hspec⟩ := single_run (s := Demo.sysN) (wd := Demo.w0) (w := 4) (h := 1)
    hb hm (p := some Demo.paramsHalf) hv hd (by norm_num) (by norm_num)
    (show 4 * 1 ≤ (lp64 .kiss).pixelMax ∧ 4 * 1 * (lp64 .kiss).szCoeff ≤ (lp64 .kiss).sizeMax from ⟨by decide +kernel, by decide +kernel⟩)
    (show 4 ≤ sideMax (lp64 .kiss) by decide +kernel) (show 1 ≤ sideMax (lp64 .kiss) by decide +kernel) (fun h => by cases h)
    (by show ¬ ScoresTooBig (lp64 .kiss) 4 1 (effParams (lp64 .kiss) (effMethod m) (some Demo.paramsHalf)).range
        rw [hr1]; unfold ScoresTooBig; decide +kernel)
    (image := image) hlen hfin Demo.w0_wf (fun _ => rfl)
  refine ⟨a, c, lw, cw, lh, ch, f, hret, hop, hspec, ?_⟩
  have han : analysed [(c, Obs.analyzed RDEOK)] = [(c, Obs.analyzed RDEOK)] := by simp [analysed]
  have hsp : Spectrum Demo.sysN a c f := by
    unfold Spectra at hspec
    rw [han] at hspec
    cases hspec with
    | cons h _ => exact h
  intro u hu
  have hs4 : Smooth 4 := by
    intro q _ hd
    have := Nat.le_of_dvd (by norm_num) hd
    omega
  have hs1 : Smooth 1 := by
    intro q _ hd
    have := Nat.le_of_dvd (by norm_num) hd
    omega
  obtain ⟨v, b, e1, e2, e3⟩ := C62_accuracy hb rfl hm hv hret.1 Demo.sysN_accurate demoN_moderate (x := (c, Obs.analyzed RDEOK)) (by simp)
    (Or.inl ⟨hs4, hs1⟩) hop him hsp u 0 hu (by norm_num)
  exact ⟨v, b, e1, e2, lt_of_lt_of_le e3 demoN_small⟩
where
  demoN_valid : ValidParams? Demo.sysN.cfg (some Demo.paramsHalf) := by
    intro q hq
    obtain ⟨h1, h2, h3, h4⟩ := Demo.paramsHalf_valid q hq
    exact ⟨h1, h2, h3, h4⟩

/-- **C78** The zero crossing method depends on orientation: with the bundled transform, a width of 2 is reported with confidence 1 for a row
of four samples, and not at all for its mirror image. -/
theorem C78_zerox_fails : ∃ a c lw cw lh ch a' c' lw' cw' lh' ch',
    Returned Demo.sysN (some zerox) 4 1 (some Demo.paramsHalf) [(c, .analyzed RDEOK)] a (some lw) cw (some lh) ch ∧
    Returned Demo.sysN (some zerox) 4 1 (some Demo.paramsHalf) [(c', .analyzed RDEOK)] a' (some lw') cw' (some lh') ch' ∧
    c.op = .analyze (some dot1) ∧ c'.op = .analyze (some dot2) ∧ Reoriented 4 1 (pixel 4 dot1) (pixel 4 dot2) ∧
    (∃ r ∈ lw, r.index = 2 ∧ ∃ v, r.confidence = .fin false v ∧ 1 ≤ v ∧ v ≤ 1) ∧ ∀ r ∈ lw', r.index ≠ 2 := by
  have hm : ValidMethod? (some zerox) := by rintro q h; cases h; simp [methods, zerox]
  have hb : Build Demo.sysN := Demo.lp64_build _ _
  have hv := demoN_run.demoN_valid
  have hpr : Precise Demo.sysN.cfg := show Precise (lp64 .kiss) from ⟨by decide +kernel, by decide +kernel⟩
  have hr1 : (effParams (lp64 .kiss) (effMethod (some zerox)) (some Demo.paramsHalf)).range = 1 := by decide +kernel
  have hr1' : (effParams Demo.sysN.cfg (effMethod (some zerox)) (some Demo.paramsHalf)).range = 1 := hr1
  obtain ⟨a, c, lw, cw, lh, ch, f, hret, hop, hspec, hw⟩ := demoN_run hm (by decide) hr1 (image := dot1) (by decide)
    (by unfold AllFinite; decide +kernel) dots_sampled.1
  obtain ⟨a', c', lw', cw', lh', ch', f', hret', hop', hspec', hw'⟩ := demoN_run hm (by decide) hr1 (image := dot2) (by decide)
    (by unfold AllFinite; decide +kernel) dots_sampled.2
  obtain ⟨X1, X2, X3, hmir⟩ := dots_spectra
  have han : ∀ c : Call, analysed [(c, Obs.analyzed RDEOK)] = [(c, Obs.analyzed RDEOK)] := fun c => by simp [analysed]
  refine ⟨a, c, lw, cw, lh, ch, a', c', lw', cw', lh', ch', hret, hret', hop, hop', dots_mirrored, ?_, ?_⟩
  · have hev : evidence Demo.sysN .zerox (rows f 4) 1 1 2 = 1 := by
      have : crossings (rows f 4) 1 2 = 1 := by
        unfold crossings
        rw [Finset.filter_true_of_mem]
        · simp
        · intro y hy
          obtain rfl : y = 0 := by simpa using hy
          obtain ⟨v1, b1, e1, g1, d1⟩ := hw 1 (by norm_num)
          obtain ⟨v2, b2, e2, g2, d2⟩ := hw 2 (by norm_num)
          obtain ⟨v3, b3, e3, g3, d3⟩ := hw 3 (by norm_num)
          rw [abs_lt] at d1 d2 d3
          have k1 : (0 : ℚ) < v1 := by have : (0 : ℝ) < v1 := by linarith
                                       exact_mod_cast this
          have k2 : v3 < 0 := by have : (v3 : ℝ) < 0 := by linarith
                                 exact_mod_cast this
          have k3 : v2 < v1 := by have : (v2 : ℝ) < v1 := by linarith
                                  exact_mod_cast this
          have k4 : v3 < v2 := by have : (v3 : ℝ) < v2 := by linarith
                                  exact_mod_cast this
          show crosses (rows f 4 0 1) (rows f 4 0 2) (rows f 4 0 3) = true
          rw [e1, e2, e3, g1 k1.ne', g3 k2.ne]
          simp [crosses, Fl.signbit, Fl.lt, k1.le, k2, k3, k4]
      simp [evidence, this]
    exact (C75_listed hb hpr hm hv demo4_noOom (by rw [han]; exact (by decide +kernel : 1 ≤ (lp64 .kiss).sizeMax))
      (by rw [han]; exact ⟨show 1 * 2 ^ 24 ≤ 2 ^ (lp64 .kiss).inter.p by decide +kernel, show (lp64 .kiss).inter.qmin ≤ -149 by decide +kernel⟩)
      (show 4 * 1 ≤ 2 ^ (lp64 .kiss).inter.p by decide +kernel) hret hspec (lo := 1) (hi := 1) (by norm_num) (by norm_num)
      (by decide +kernel) (by decide +kernel) (show (effParams (lp64 .kiss) (effMethod (some zerox)) (some Demo.paramsHalf)).compressionFilter = 0 by decide +kernel)
      (show val (effParams (lp64 .kiss) (effMethod (some zerox)) (some Demo.paramsHalf)).threshold ≤ 1 by decide +kernel)).1 lw rfl 2
      (by rw [hr1']; norm_num) (by rw [hr1']; norm_num)
      (by intro f0 hf0; rw [List.mem_singleton] at hf0; rw [hf0, hr1']; exact ⟨hev.ge, hev.le⟩)
  · have hev : evidence Demo.sysN .zerox (rows f' 4) 1 1 2 = 0 := by
      have : crossings (rows f' 4) 1 2 = 0 := by
        unfold crossings
        rw [Finset.card_eq_zero, Finset.filter_eq_empty_iff]
        intro y hy
        obtain rfl : y = 0 := by simpa using hy
        obtain ⟨v1, b1, e1, g1, d1⟩ := hw' 1 (by norm_num)
        obtain ⟨v2, b2, e2, g2, d2⟩ := hw' 2 (by norm_num)
        obtain ⟨v3, b3, e3, g3, d3⟩ := hw' 3 (by norm_num)
        rw [hmir, abs_lt] at d1 d2 d3
        norm_num at d1 d2 d3
        have k3 : v2 < v1 := by have : (v2 : ℝ) < v1 := by linarith
                                exact_mod_cast this
        have k4 : v2 < v3 := by have : (v2 : ℝ) < v3 := by linarith
                                exact_mod_cast this
        show ¬ crosses (rows f' 4 0 1) (rows f' 4 0 2) (rows f' 4 0 3) = true
        rw [e1, e2, e3]
        simp [crosses, Fl.signbit, Fl.lt, k3.le, k4.le]
      simp [evidence, this]
    exact (C75_absent hb hpr hm hv demo4_noOom (by rw [han]; exact (by decide +kernel : 1 ≤ (lp64 .kiss).sizeMax))
      (by rw [han]; exact ⟨show 1 * 2 ^ 24 ≤ 2 ^ (lp64 .kiss).inter.p by decide +kernel, show (lp64 .kiss).inter.qmin ≤ -149 by decide +kernel⟩)
      (show 4 * 1 ≤ 2 ^ (lp64 .kiss).inter.p by decide +kernel) hret' hspec' (hi := 0) (by decide +kernel)
      (show binary32.rnd (val (effParams (lp64 .kiss) (effMethod (some zerox)) (some Demo.paramsHalf)).threshold) =
        val (effParams (lp64 .kiss) (effMethod (some zerox)) (some Demo.paramsHalf)).threshold by decide +kernel)
      (show 0 < val (effParams (lp64 .kiss) (effMethod (some zerox)) (some Demo.paramsHalf)).threshold by decide +kernel)).1 lw' rfl 2
      (by rw [hr1']; norm_num) (by rw [hr1']; norm_num)
      (by intro f0 hf0; rw [List.mem_singleton] at hf0; rw [hf0, hr1']; exact hev.le)

/-- The mirror image at half the contrast, and brighter. -/
def dot3 : List Fl := [1 / 4, 1 / 4, 3 / 4, 1 / 4].map (fun q : ℚ => .fin false q)

theorem dot3_pixel : ∀ i j, i < 4 → j < 1 → pixel 4 dot3 i j = 1 / 2 * pixel 4 dot2 i j + 1 / 4 := by
  intro i j hi hj
  obtain rfl : j = 0 := by omega
  interval_cases i <;> norm_num [pixel, dot2, dot3, val]

theorem dot3_same : SamePicture 4 1 (pixel 4 dot1) (pixel 4 dot3) :=
  ⟨fun i j => 1 / 2 * pixel 4 dot2 i j, 1 / 4, .trans dots_mirrored (.contrast (1 / 2) (by norm_num) (fun _ _ _ _ => rfl)), dot3_pixel⟩

theorem dot3_sampled : Sampled 1 4 1 dot3 := by
  intro i j hi hj
  obtain rfl : j = 0 := by omega
  interval_cases i
  · exact ⟨false, 1 / 4, rfl, by norm_num [abs_of_pos]⟩
  · exact ⟨false, 1 / 4, rfl, by norm_num [abs_of_pos]⟩
  · exact ⟨false, 3 / 4, rfl, by norm_num [abs_of_pos]⟩
  · exact ⟨false, 1 / 4, rfl, by norm_num [abs_of_pos]⟩

theorem dots_clear : Clear (totalError (2 ^ (-24 : ℤ)) 1 (1 / 1024) 4 1) (fun v u => dct2 4 1 (pixel 4 dot1) u v) 1 1 2 ∧
    Clear (totalError (2 ^ (-24 : ℤ)) 1 (1 / 1024) 4 1) (fun v u => dct2 4 1 (pixel 4 dot3) u v) 1 1 2 := by
  obtain ⟨X1, X2, X3, hmir⟩ := dots_spectra
  have hE : totalError (2 ^ (-24 : ℤ)) 1 (1 / 1024) 4 1 ≤ 1 / 10 := by
    unfold totalError
    have := demoN_small
    norm_num at this ⊢
    linarith
  have h3 : ∀ u, 0 < u → u < 4 → dct2 4 1 (pixel 4 dot3) u 0 = 1 / 2 * ((-1) ^ u * dct2 4 1 (pixel 4 dot1) u 0) := by
    intro u u0 u4
    rw [dct2_congr dot3_pixel, dct2_bright (fun i j => 1 / 2 * pixel 4 dot2 i j) (1 / 4) u4 (by norm_num) (Or.inl (by omega)), ← hmir]
    unfold dct2
    exact dct_smul (1 / 2) _ _ (fun j _ => dct_smul (1 / 2) _ _ (fun i _ => rfl) u) 0
  constructor
  · intro y hy x h1 h2 hne
    obtain rfl : y = 0 := by omega
    simp only
    rcases (by omega : x = 1 ∨ x = 3) with rfl | rfl
    · exact le_trans hE (le_abs.mpr (Or.inl (by linarith)))
    · exact le_trans hE (le_abs.mpr (Or.inr (by linarith)))
  · intro y hy x h1 h2 hne
    obtain rfl : y = 0 := by omega
    simp only
    rcases (by omega : x = 1 ∨ x = 3) with rfl | rfl
    · rw [h3 1 (by norm_num) (by norm_num)]
      exact le_trans hE (le_abs.mpr (Or.inr (by norm_num; linarith)))
    · rw [h3 3 (by norm_num) (by norm_num)]
      exact le_trans hE (le_abs.mpr (Or.inl (by norm_num; linarith)))

/-- The hypotheses of C78 can be met: a row of four samples and its mirror image, paler and brighter, with samples allowed to be off by
1/1024, on a platform with accurate tables. -/
example : ∃ a c lw cw lh ch a' c' lw' cw' lh' ch',
    Returned Demo.sysN none 4 1 (some Demo.paramsHalf) [(c, .analyzed RDEOK)] a (some lw) cw (some lh) ch ∧
    Returned Demo.sysN none 4 1 (some Demo.paramsHalf) [(c', .analyzed RDEOK)] a' (some lw') cw' (some lh') ch' ∧
    c.op = .analyze (some dot1) ∧ c'.op = .analyze (some dot3) ∧ ∀ x, (⟨2, x⟩ : Res) ∈ lw ↔ ⟨2, x⟩ ∈ lw' := by
  have hb : Build Demo.sysN := Demo.lp64_build _ _
  have hr1 : (effParams (lp64 .kiss) (effMethod none) (some Demo.paramsHalf)).range = 1 := by decide +kernel
  have hr1' : (effParams Demo.sysN.cfg (effMethod none) (some Demo.paramsHalf)).range = 1 := hr1
  obtain ⟨a, c, lw, cw, lh, ch, f, hret, hop, _, _⟩ := demoN_run Demo.none_method (by decide) hr1 (image := dot1) (by decide)
    (by unfold AllFinite; decide +kernel) dots_sampled.1
  obtain ⟨a', c', lw', cw', lh', ch', f', hret', hop', _, _⟩ := demoN_run Demo.none_method (by decide) hr1 (image := dot3) (by decide)
    (by unfold AllFinite; decide +kernel) dot3_sampled
  have han : ∀ c : Call, analysed [(c, Obs.analyzed RDEOK)] = [(c, Obs.analyzed RDEOK)] := fun c => by simp [analysed]
  refine ⟨a, c, lw, cw, lh, ch, a', c', lw', cw', lh', ch', hret, hret', hop, hop', ?_⟩
  have hs4 : Smooth 4 := by
    intro q _ hd
    have := Nat.le_of_dvd (by norm_num) hd
    omega
  have hs1 : Smooth 1 := by
    intro q _ hd
    have := Nat.le_of_dvd (by norm_num) hd
    omega
  refine (C78_bundled (e := 1 / 1024) hb rfl Demo.none_method demoN_run.demoN_valid rfl demo4_noOom demo4_noOom
    (by rw [han]; exact (by decide +kernel : 1 ≤ (lp64 .kiss).sizeMax)) hret hret' Demo.sysN_accurate demoN_moderate (Or.inl ⟨hs4, hs1⟩)).1
    lw lw' rfl rfl 2 (by rw [hr1']; norm_num) (by rw [hr1']; norm_num) ?_
  rw [han, han, hr1']
  refine .cons ⟨dot1, dot3, hop, hop', dots_sampled.1, dot3_sampled, pixel 4 dot1, pixel 4 dot3, dot3_same, dots_clear.1, dots_clear.2,
    fun i j _ _ => by rw [sub_self, abs_zero]; norm_num, fun i j _ _ => by rw [sub_self, abs_zero]; norm_num⟩ .nil

/-- A 4 by 2 spectrum and the same with every other column and all signs changed. -/
def turn4 : List Fl := [-1, 1, 1, -1, -1, 1, -1, 1].map (fun q : ℚ => .fin (decide (q < 0)) q)

example : Turned 4 2 half4 turn4 ∧ ∀ u v, u < 4 → v < 2 → ∀ b, rows half4 4 v u ≠ .nan b := by
  constructor
  · refine ⟨true, false, true, ?_⟩
    intro u v hu hv
    interval_cases u <;> interval_cases v <;> decide +kernel
  · intro u v hu hv b
    interval_cases u <;> interval_cases v <;> cases b <;> decide +kernel

/-- Both lead to the same lists: the demo transform hands samples on unchanged. -/
example : lists (resdetect Demo.sys (some half4) 1 4 2 .all none (some Demo.paramsHalf) Demo.w0) =
    lists (resdetect Demo.sys (some turn4) 1 4 2 .all none (some Demo.paramsHalf) Demo.w0) ∧
    (lists (resdetect Demo.sys (some half4) 1 4 2 .all none (some Demo.paramsHalf) Demo.w0)).isSome = true := ⟨by decide +kernel, by decide +kernel⟩

end Verif.Props
