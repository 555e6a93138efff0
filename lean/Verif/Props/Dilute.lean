import Verif.Props.Flat
import Verif.Spec.Dilute

/-! # Frames without content among others (C99) -/

namespace Verif.Props

open Spec

variable {s : Sys} {m : Option Method} {p : Option Params} {w h : ℕ} {ev ev' : List (Call × Obs)} {a a' : Analysis}
  {rw rh rw' rh' : Option (List Res)} {cw ch cw' ch' : ℕ}

/-- A frame without content scores nothing anywhere. -/
theorem empty_scores (hs : Build s) (hpr : Precise s.cfg) (hm : ValidMethod? m) (hp : ValidParams? s.cfg p) (hr : Returned s m w h p ev a rw cw rh ch)
    (heps : s.cfg.coeff.qmin ≤ 1 - (s.cfg.inter.p : ℤ)) {x : Call × Obs} (hx : x ∈ ev) (he : EmptyFrame s w h x) {f : List Fl} (hf : Spectrum s a x.1 f)
    {d : Detect} {range : ℕ} (r0 : 0 < range) :
    (∀ i, range ≤ i → i + range < w → (frameScore s d (rows f w) h range i).getD (.fin false 0) = .fin false 0) ∧
    (∀ i, range ≤ i → i + range < h → (frameScore s d (cols f w) w range i).getD (.fin false 0) = .fin false 0) := by
  have hF := hs.wf.inter_wf
  have hc := hs.wf.coeff_wf
  obtain ⟨w0, h0, wp, hp', -, -⟩ := returned_sizes hs hpr hm hp hr
  have hlen := spectrum_length hs hm hp hr.1 hx hf
  rcases he with ⟨hq, hb⟩ | ⟨hq, hw, hh, q, q0, q1, hfl⟩
  · have hz := C98_spectrum hs hm hp hr.1 hq hb hf
    constructor
    · intro i hi1 hi2
      refine frameScore_zero hF hpr hc heps hp' (by omega) h0 r0 hi1 hi2 fun y hy z hz' => ?_
      have hlt : y * w + z < f.length := by rw [hlen]; nlinarith
      unfold rows
      rw [List.getElem?_eq_getElem hlt]
      exact hz _ (List.getElem_mem _)
    · intro i hi1 hi2
      refine frameScore_zero hF hpr hc heps wp (by omega) w0 r0 hi1 hi2 fun y hy z hz' => ?_
      have hlt : z * w + y < f.length := by rw [hlen]; nlinarith
      unfold cols rows
      rw [List.getElem?_eq_getElem hlt]
      exact hz _ (List.getElem_mem _)
  · obtain ⟨D, d0, d1, d2⟩ := C98_flat_spectrum_partial hs hm hp hr.1 hq hw hh q0 q1 hfl hf
    have hpp : (1 : ℚ) ≤ pow2 ((s.cfg.inter.p : ℤ) - 1) := by
      rw [← show pow2 0 = 1 by simp [pow2]]
      exact pow2_le (by have := hF.p_pos; omega)
    have hone : (1 : ℚ) ≤ pow2 (s.cfg.coeff.emax - 2) := by
      have hn1 : (1 : ℚ) ≤ ((w * h : ℕ) : ℚ) ^ 2 := one_le_pow₀ (by exact_mod_cast Nat.mul_pos w0 h0)
      have := hq.room
      nlinarith
    have hD := le_trans (mul_le_mul_of_nonneg_right d1 (pow2_pos _).le) hq.room
    constructor
    · intro i hi1 hi2
      refine frameScore_dot hF hpr hc hq.eps hq.order hone d0 hD hp' (by omega) h0 r0 hi1 hi2 fun y hy z hz' => ?_
      have hlt : y * w + z < w * h := by nlinarith
      have := d2 _ hlt _ (List.getElem?_eq_getElem (by omega))
      unfold rows
      rw [List.getElem?_eq_getElem (by omega), Option.getD_some, this]
      by_cases hz : z = 0
      · by_cases hi : y * w + z = 0
        · exact .inr ⟨hz, by rw [if_pos hi]⟩
        · exact .inl (by rw [if_neg hi])
      · exact .inl (by rw [if_neg (by omega)])
    · intro i hi1 hi2
      refine frameScore_dot hF hpr hc hq.eps hq.order hone d0 hD wp (by omega) w0 r0 hi1 hi2 fun y hy z hz' => ?_
      have hlt : z * w + y < w * h := by nlinarith
      have := d2 _ hlt _ (List.getElem?_eq_getElem (by omega))
      unfold cols rows
      rw [List.getElem?_eq_getElem (by omega), Option.getD_some, this]
      by_cases hz : z = 0
      · by_cases hi : z * w + y = 0
        · exact .inr ⟨hz, by rw [if_pos hi]⟩
        · exact .inl (by rw [if_neg hi])
      · refine .inl ?_
        have : 0 < z * w := Nat.mul_pos (by omega) w0
        rw [if_neg (by omega)]

/-- Frames that score nothing do not change the sum. -/
theorem total_diluted (hF : s.cfg.inter.WF) (hp : Precise s.cfg) {d : Detect} {g : List Fl → ℕ → ℕ → Fl} {n range x : ℕ}
    (hn : n ≤ 2 ^ s.cfg.inter.p) (hr : range ≤ 2 ^ s.cfg.inter.p) (hn0 : 0 < n) (hr0 : 0 < range) {fs fs' : List (List Fl)}
    (h : Diluted (· = ·) (fun f => (frameScore s d (g f) n range x).getD (.fin false 0) = .fin false 0) fs fs') (hk : fs'.length ≤ 2 ^ s.cfg.inter.p) :
    total s d g n range fs x = total s d g n range fs' x := by
  unfold total
  have key : ∀ (acc : Fl) (k : ℕ), Rep s.cfg.inter k acc → k + fs'.length ≤ 2 ^ s.cfg.inter.p →
      fs.foldl (fun acc f => addScore s.cfg acc (frameScore s d (g f) n range x)) acc = fs'.foldl (fun acc f => addScore s.cfg acc (frameScore s d (g f) n range x)) acc := by
    clear hk
    induction h with
    | nil => exact fun _ _ _ _ => rfl
    | same e _ ih =>
      intro acc k ha hk
      subst e
      rw [List.length_cons] at hk
      rw [List.foldl_cons, List.foldl_cons]
      exact ih _ (k + 1) (addScore_rep hF hp (fun v hv => frameScore_rep hF hp hn hr hn0 hr0 hv) (by omega) ha).1 (by omega)
    | @extra f xs ys e _ ih =>
      intro acc k ha hk
      rw [List.length_cons] at hk
      rw [List.foldl_cons]
      have : addScore s.cfg acc (frameScore s d (g f) n range x) = acc := by
        cases ho : frameScore s d (g f) n range x with
        | none => rfl
        | some v =>
          rw [ho, Option.getD_some] at e
          subst e
          obtain ⟨v, rfl, v0, v1, v2⟩ := ha
          simp only [addScore, Fmt.add, Bool.and_self, add_zero]
          rw [deliver_nn _ v0, v2]
          rw [v2]
          refine lt_of_le_of_lt (b := pow2 s.cfg.inter.p) ?_ (pow2_lt hp.p_lt)
          rw [pow2_natCast]
          have : ((k : ℕ) : ℚ) ≤ ((2 ^ s.cfg.inter.p : ℕ) : ℚ) := by exact_mod_cast (by omega)
          push_cast at this
          linarith
      rw [this]
      exact ih acc k ha (by omega)
  exact key _ 0 ⟨0, rfl, le_rfl, by simp, s.cfg.inter.rnd_zero⟩ (by omega)

/-- Two roundings of a value and of its share. -/
theorem near_scaled {x x' y y' v v' c a b : ℚ} (c0 : 0 ≤ c) (c1 : c ≤ 1) (hx : x' = x * c) (r1 : |y - x| ≤ a) (r1' : |y' - x'| ≤ a) (r2 : |v - y| ≤ b)
    (r2' : |v' - y'| ≤ b) : |v' - v * c| ≤ 2 * a + (b + b) := by
  have hv : |v - x| ≤ a + b := by
    have := abs_add_le (v - y) (y - x)
    rw [sub_add_sub_cancel] at this
    linarith
  have hv' : |v' - x'| ≤ a + b := by
    have := abs_add_le (v' - y') (y' - x')
    rw [sub_add_sub_cancel] at this
    linarith
  have hvc : |(v - x) * c| ≤ a + b := by
    rw [abs_mul, abs_of_nonneg c0]
    exact le_trans (mul_le_of_le_one_right (abs_nonneg _) c1) hv
  have e : v' - v * c = (v' - x') - (v - x) * c := by rw [hx]; ring
  rw [e, abs_le]
  rw [abs_le] at hv' hvc
  constructor <;> linarith [hv'.1, hv'.2, hvc.1, hvc.2]

theorem diluted_length {α : Type} {same : α → α → Prop} {extra : α → Prop} {xs ys : List α} (h : Diluted same extra xs ys) : xs.length ≤ ys.length := by
  induction h with
  | nil => exact le_rfl
  | same _ _ ih => simpa using ih
  | extra _ _ ih => simp only [List.length_cons]; omega

theorem diluted_mono {α : Type} {same : α → α → Prop} {P Q : α → Prop} (hPQ : ∀ f, P f → Q f) {xs ys : List α} (h : Diluted same P xs ys) :
    Diluted same Q xs ys := by
  induction h with
  | nil => exact .nil
  | same e _ ih => exact .same e ih
  | extra e _ ih => exact .extra (hPQ _ e) ih

/-- Equal frames have equal spectra. -/
theorem diluted_spectra (hs : Build s) (hm : ValidMethod? m) (hp : ValidParams? s.cfg p) (hr : Reach s m w h p ev a) (hr' : Reach s m w h p ev' a')
    {E : Call × Obs → Prop} {xs ys : List (Call × Obs)} (hd : Diluted (SameFrame (w * h)) E xs ys) (hsafe : Unaffected s w h (xs ++ ys))
    {fs fs' : List (List Fl)} (h1 : List.Forall₂ (fun x f => Spectrum s a x.1 f) xs fs) (h1' : List.Forall₂ (fun x f => Spectrum s a' x.1 f) ys fs')
    (hsub : ∀ x ∈ xs, x ∈ ev) (hsub' : ∀ x ∈ ys, x ∈ ev') :
    Diluted (· = ·) (fun f => ∃ x ∈ ev', E x ∧ Spectrum s a' x.1 f) fs fs' := by
  induction hd generalizing fs fs' with
  | nil => cases h1; cases h1'; exact .nil
  | @same x y xs ys e _ ih =>
    cases h1 with
    | cons k1 k2 =>
      cases h1' with
      | cons k1' k2' =>
        refine .same ?_ (ih ?_ k2 k2' (fun x hx => hsub x (by simp [hx])) (fun x hx => hsub' x (by simp [hx])))
        · refine spectrum_repeats hs hm hp hr hr' (hsub _ (by simp)) e k1 k1' (hsafe.imp_right (Or.imp_right fun hb z hz => hb z ?_))
          simp only [List.mem_cons, List.not_mem_nil, or_false] at hz
          rcases hz with rfl | rfl <;> simp
        · refine hsafe.imp_right (Or.imp_right fun hb z hz => hb z ?_)
          rcases List.mem_append.mp hz with hz | hz <;> simp [hz]
  | @extra y xs ys e _ ih =>
    cases h1' with
    | cons k1' k2' =>
      refine .extra ⟨y, hsub' _ (by simp), e, k1'⟩ (ih ?_ h1 k2' hsub (fun x hx => hsub' x (by simp [hx])))
      refine hsafe.imp_right (Or.imp_right fun hb z hz => hb z ?_)
      rcases List.mem_append.mp hz with hz | hz <;> simp [hz]

theorem listed_weaker (hs : Build s) (hpr : Precise s.cfg) {d : Detect} {q : Params} {len n : ℕ} {g : List Fl → ℕ → ℕ → Fl} {fs fs' : List (List Fl)}
    {l l' : List Res} (hn : 0 < n) (hn' : n ≤ 2 ^ s.cfg.inter.p) (hlen : len ≤ 2 ^ s.cfg.inter.p) (hr : 0 < q.range)
    (h : Listed s d q len g n fs l) (h' : Listed s d q len g n fs' l') (hne : fs ≠ []) (hk : fs'.length ≤ 2 ^ s.cfg.inter.p)
    (hle : fs.length ≤ fs'.length) (htot : ∀ x, q.range ≤ x → x + q.range < len → total s d g n q.range fs x = total s d g n q.range fs' x) :
    Weaker fs.length fs'.length (2 * pow2 (-s.cfg.inter.p) + pow2 (-23)) len l l' := by
  have hF := hs.wf.inter_wf
  intro r hrl hri
  obtain ⟨init, e1, _, e2⟩ := h.parts
  obtain ⟨init', e1', _, e2'⟩ := h'.parts
  rw [e1'] at hrl
  rcases List.mem_append.mp hrl with hrl | hrl
  swap
  · rw [List.mem_singleton] at hrl
    rw [hrl] at hri
    exact absurd rfl hri
  obtain ⟨b1, b2, b3, b4, b5⟩ := (e2' r).mp hrl
  have c2 : q.range ≤ 2 ^ s.cfg.inter.p := by omega
  have hpos : 0 < fs.length := List.length_pos_iff.mpr hne
  have ht := htot r.index b1 b2
  obtain ⟨T, t1, t2, t3⟩ := total_le hF hpr (d := d) (g := g) (x := r.index) hn' c2 hn hr (fs := fs) (by omega)
  have t3' : T ≤ (fs'.length : ℚ) := le_trans t3 (by exact_mod_cast hle)
  obtain ⟨m1, m2, m3⟩ := mean_unit hF hpr hpos (by omega : fs.length ≤ _) t2 t3
  obtain ⟨m1', m2', m3'⟩ := mean_unit hF hpr (by omega : 0 < fs'.length) hk t2 t3'
  have e : meanAt s d g n q.range fs r.index = .fin false (s.cfg.inter.rnd (T / fs.length)) := by unfold meanAt; rw [t1, m1]
  have e' : meanAt s d g n q.range fs' r.index = .fin false (s.cfg.inter.rnd (T / fs'.length)) := by unfold meanAt; rw [← ht, t1, m1']
  have kpos : (0 : ℚ) < fs.length := by exact_mod_cast hpos
  have kpos' : (0 : ℚ) < fs'.length := by exact_mod_cast (by omega : 0 < fs'.length)
  have kle : (fs.length : ℚ) ≤ fs'.length := by exact_mod_cast hle
  have hmean : s.cfg.inter.rnd (T / fs'.length) ≤ s.cfg.inter.rnd (T / fs.length) := s.cfg.inter.rnd_mono hF.p_pos (div_le_div_of_nonneg_left t2 kpos kle)
  obtain ⟨u0, u1⟩ := rnd_unit hF m2 m3
  obtain ⟨u0', u1'⟩ := rnd_unit hF m2' m3'
  have w32 : binary32.WF := binary32_wf
  refine ⟨⟨r.index, .fin false (binary32.rnd (s.cfg.inter.rnd (T / fs.length)))⟩, ?_, rfl, _, _, rfl, by rw [b5, e', conv_unit_false w32 u0' u1'],
    binary32.rnd_mono w32.p_pos hmean, ?_⟩
  · rw [e1]
    refine List.mem_append_left _ ((e2 _).mpr ⟨b1, b2, b3, ?_, by rw [e, conv_unit_false w32 u0 u1]⟩)
    rw [e]
    rw [e'] at b4
    cases hc : s.cfg.inter.conv q.threshold with
    | nan b => rw [hc] at b4; exact b4
    | inf b => rw [hc] at b4; exact b4
    | fin b v =>
      rw [hc] at b4
      simp only [Fl.ge, Fl.lt, Bool.not_eq_true', decide_eq_false_iff_not, not_lt] at b4 ⊢
      linarith
  · have r1 := s.cfg.inter.rnd_err hF (K := 1) le_rfl m2 (by simpa using m3)
    have r1' := s.cfg.inter.rnd_err hF (K := 1) le_rfl m2' (by simpa using m3')
    have r2 := binary32.rnd_err w32 (K := 1) le_rfl u0 (by simpa using u1)
    have r2' := binary32.rnd_err w32 (K := 1) le_rfl u0' (by simpa using u1')
    have e24 : pow2 (-(binary32.p : ℤ)) = pow2 (-24) := rfl
    have e23 : pow2 (-23) = pow2 (-24) + pow2 (-24) := by decide +kernel
    rw [e24, Nat.cast_one, one_mul] at r2 r2'
    rw [Nat.cast_one, one_mul] at r1 r1'
    have hc0 : 0 ≤ (fs.length : ℚ) / fs'.length := by positivity
    have hc1 : (fs.length : ℚ) / fs'.length ≤ 1 := (div_le_one kpos').mpr kle
    have hT : T / fs'.length = T / fs.length * ((fs.length : ℚ) / fs'.length) := by field_simp
    rw [mul_div_assoc, e23]
    exact near_scaled hc0 hc1 hT r1 r1' r2 r2'

/-- What falls under the threshold was not far above it, scaled. -/
theorem below_scaled {x x' y y' v c a b t t' : ℚ} (c0 : 0 ≤ c) (c1 : c ≤ 1) (hx : x' = x * c) (r1 : |y - x| ≤ a) (r1' : |y' - x'| ≤ a) (r2 : |v - y| ≤ b)
    (rt : |t' - t| ≤ a) (hc : y' < t') : v * c ≤ t + (3 * a + b) := by
  have hv : |v - x| ≤ a + b := by
    have := abs_add_le (v - y) (y - x)
    rw [sub_add_sub_cancel] at this
    linarith
  have hvc : |(v - x) * c| ≤ a + b := by
    rw [abs_mul, abs_of_nonneg c0]
    exact le_trans (mul_le_of_le_one_right (abs_nonneg _) c1) hv
  have e : v * c = x' + (v - x) * c := by rw [hx]; ring
  rw [e]
  linarith [(abs_le.mp hvc).2, (abs_le.mp r1').1, (abs_le.mp rt).2]

theorem listed_kept (hs : Build s) (hpr : Precise s.cfg) {d : Detect} {q : Params} {len n : ℕ} {g : List Fl → ℕ → ℕ → Fl} {fs fs' : List (List Fl)}
    {l l' : List Res} (hn : 0 < n) (hn' : n ≤ 2 ^ s.cfg.inter.p) (hlen : len ≤ 2 ^ s.cfg.inter.p) (hr : 0 < q.range) (ht : InUnit q.threshold)
    (h : Listed s d q len g n fs l) (h' : Listed s d q len g n fs' l') (hne : fs ≠ []) (hk : fs'.length ≤ 2 ^ s.cfg.inter.p)
    (hle : fs.length ≤ fs'.length) (htot : ∀ x, q.range ≤ x → x + q.range < len → total s d g n q.range fs x = total s d g n q.range fs' x) :
    Kept fs.length fs'.length (3 * pow2 (-s.cfg.inter.p) + pow2 (-24)) (val q.threshold) len l l' := by
  have hF := hs.wf.inter_wf
  intro r hrl hri
  obtain ⟨init, e1, _, e2⟩ := h.parts
  obtain ⟨init', e1', _, e2'⟩ := h'.parts
  rw [e1] at hrl
  rcases List.mem_append.mp hrl with hrl | hrl
  swap
  · rw [List.mem_singleton] at hrl
    rw [hrl] at hri
    exact absurd rfl hri
  obtain ⟨b1, b2, b3, b4, b5⟩ := (e2 r).mp hrl
  have c2 : q.range ≤ 2 ^ s.cfg.inter.p := by omega
  have hpos : 0 < fs.length := List.length_pos_iff.mpr hne
  have htt := htot r.index b1 b2
  obtain ⟨T, t1, t2, t3⟩ := total_le hF hpr (d := d) (g := g) (x := r.index) hn' c2 hn hr (fs := fs) (by omega)
  have t3' : T ≤ (fs'.length : ℚ) := le_trans t3 (by exact_mod_cast hle)
  obtain ⟨m1, m2, m3⟩ := mean_unit hF hpr hpos (by omega : fs.length ≤ _) t2 t3
  obtain ⟨m1', m2', m3'⟩ := mean_unit hF hpr (by omega : 0 < fs'.length) hk t2 t3'
  have e : meanAt s d g n q.range fs r.index = .fin false (s.cfg.inter.rnd (T / fs.length)) := by unfold meanAt; rw [t1, m1]
  have e' : meanAt s d g n q.range fs' r.index = .fin false (s.cfg.inter.rnd (T / fs'.length)) := by unfold meanAt; rw [← htt, t1, m1']
  have kpos : (0 : ℚ) < fs.length := by exact_mod_cast hpos
  have kpos' : (0 : ℚ) < fs'.length := by exact_mod_cast (by omega : 0 < fs'.length)
  have kle : (fs.length : ℚ) ≤ fs'.length := by exact_mod_cast hle
  obtain ⟨u0, u1⟩ := rnd_unit hF m2 m3
  obtain ⟨u0', u1'⟩ := rnd_unit hF m2' m3'
  have w32 : binary32.WF := binary32_wf
  refine ⟨binary32.rnd (s.cfg.inter.rnd (T / fs.length)), by rw [b5, e, conv_unit_false w32 u0 u1], ?_⟩
  have ht0 := ht
  obtain ⟨b, t, et, t0, t1⟩ := ht
  rw [et] at ht0 ⊢
  obtain ⟨b', et'⟩ := conv_unit_eq hF ht0
  have rt := s.cfg.inter.rnd_err hF (K := 1) le_rfl t0 (by simpa using t1)
  rw [Nat.cast_one, one_mul] at rt
  by_cases hc : s.cfg.inter.rnd t ≤ s.cfg.inter.rnd (T / fs'.length)
  · left
    refine ⟨⟨r.index, .fin false (binary32.rnd (s.cfg.inter.rnd (T / fs'.length)))⟩, ?_, rfl⟩
    rw [e1']
    refine List.mem_append_left _ ((e2' _).mpr ⟨b1, b2, b3, ?_, by rw [e', conv_unit_false w32 u0' u1']⟩)
    rw [e', et, et']
    simpa [Fl.ge, Fl.lt] using hc
  · right
    simp only [val]
    rw [not_le] at hc
    have r1 := s.cfg.inter.rnd_err hF (K := 1) le_rfl m2 (by simpa using m3)
    have r1' := s.cfg.inter.rnd_err hF (K := 1) le_rfl m2' (by simpa using m3')
    have r2 := binary32.rnd_err w32 (K := 1) le_rfl u0 (by simpa using u1)
    have e24 : pow2 (-(binary32.p : ℤ)) = pow2 (-24) := rfl
    rw [e24, Nat.cast_one, one_mul] at r2
    rw [Nat.cast_one, one_mul] at r1 r1'
    have hc0 : 0 ≤ (fs.length : ℚ) / fs'.length := by positivity
    have hc1 : (fs.length : ℚ) / fs'.length ≤ 1 := (div_le_one kpos').mpr kle
    have hT : T / fs'.length = T / fs.length * ((fs.length : ℚ) / fs'.length) := by field_simp
    rw [mul_div_assoc]
    exact below_scaled hc0 hc1 hT r1 r1' r2 rt hc

/-- **C99** Frames without content, anywhere among others, add no candidates: each one found with them is found without them, with a confidence at least
as large. With `k` frames that have content among `k'`, the confidences are `k / k'` of those found without the others, up to rounding, and those for
which this is above the threshold, up to rounding, are found. -/
theorem C99_dilute (hs : Build s) (hpr : Precise s.cfg) (hm : ValidMethod? m) (hp : ValidParams? s.cfg p) (hno : NoOom ev) (hno' : NoOom ev')
    (hr : Returned s m w h p ev a rw cw rh ch) (hr' : Returned s m w h p ev' a' rw' cw' rh' ch') {k k' : ℕ} (hk : (analysed ev).length = k)
    (hk' : (analysed ev').length = k') (hkp : k' ≤ 2 ^ s.cfg.inter.p) (hks : k' ≤ s.cfg.sizeMax) (heps : s.cfg.coeff.qmin ≤ 1 - (s.cfg.inter.p : ℤ))
    (hframes : Diluted (SameFrame (w * h)) (EmptyFrame s w h) (analysed ev) (analysed ev')) (hsafe : Unaffected s w h (analysed ev ++ analysed ev')) :
    let ε : ℚ := 2 * pow2 (-s.cfg.inter.p) + pow2 (-23)
    let δ : ℚ := 3 * pow2 (-s.cfg.inter.p) + pow2 (-24)
    let t := val (effParams s.cfg (effMethod m) p).threshold
    (∀ l l', rw = some l → rw' = some l' → Weaker k k' ε w l l' ∧ Kept k k' δ t w l l') ∧
    (∀ l l', rh = some l → rh' = some l' → Weaker k k' ε h l l' ∧ Kept k k' δ t h l l') := by
  have hF := hs.wf.inter_wf
  obtain ⟨fs, h1, -, -⟩ := (returned_got hs hm hp hr).inv.scores hno
  obtain ⟨fs', h1', -, -⟩ := (returned_got hs hm hp hr').inv.scores hno'
  obtain ⟨w0, h0, wp, hp', r0, ht⟩ := returned_sizes hs hpr hm hp hr
  have hkk := diluted_length hframes
  obtain ⟨hne, hfl, hX, hY⟩ := returned_listed hs hm hp hno (by omega) hr h1
  obtain ⟨hne', hfl', hX', hY'⟩ := returned_listed hs hm hp hno' (by omega) hr' h1'
  have ek : fs.length = k := by omega
  have ek' : fs'.length = k' := by omega
  have hdil : Diluted (· = ·) (fun f => ∃ x ∈ ev', EmptyFrame s w h x ∧ Spectrum s a' x.1 f) fs fs' :=
    diluted_spectra hs hm hp hr.1 hr'.1 hframes hsafe h1 h1' (fun x hx => List.mem_of_mem_filter hx) (fun x hx => List.mem_of_mem_filter hx)
  intro ε δ t
  rw [← ek, ← ek']
  constructor
  · intro l l' e e'
    have htot : ∀ x, (effParams s.cfg (effMethod m) p).range ≤ x → x + (effParams s.cfg (effMethod m) p).range < w → _ := fun x hx1 hx2 =>
      total_diluted hF hpr (d := (effMethod m).func) (g := fun f => rows f w) (x := x) hp' (by omega) h0 r0
        (diluted_mono (fun f ⟨x', hx', he, hsp⟩ => (empty_scores hs hpr hm hp hr' heps hx' he hsp r0).1 x hx1 hx2) hdil) (by omega)
    exact ⟨listed_weaker hs hpr h0 hp' wp r0 (hX l e) (hX' l' e') hne (by omega) (by omega) htot,
      listed_kept hs hpr h0 hp' wp r0 ht (hX l e) (hX' l' e') hne (by omega) (by omega) htot⟩
  · intro l l' e e'
    have htot : ∀ x, (effParams s.cfg (effMethod m) p).range ≤ x → x + (effParams s.cfg (effMethod m) p).range < h → _ := fun x hx1 hx2 =>
      total_diluted hF hpr (d := (effMethod m).func) (g := fun f => cols f w) (x := x) wp (by omega) w0 r0
        (diluted_mono (fun f ⟨x', hx', he, hsp⟩ => (empty_scores hs hpr hm hp hr' heps hx' he hsp r0).2 x hx1 hx2) hdil) (by omega)
    exact ⟨listed_weaker hs hpr w0 wp hp' r0 (hY l e) (hY' l' e') hne (by omega) (by omega) htot,
      listed_kept hs hpr w0 wp hp' r0 ht (hY l e) (hY' l' e') hne (by omega) (by omega) htot⟩

/-- A history with one frame, and one with a black frame before it. -/
theorem Demo.withBlack {f : List Fl} {ev ev' : List (Call × Obs)} (h : ev.map (fun x => x.1.op) = [f].map (fun f => Op.analyze (some f)))
    (h' : ev'.map (fun x => x.1.op) = [List.replicate 18 (.fin false 0), f].map (fun f => Op.analyze (some f))) :
    Diluted (SameFrame (3 * 6)) (EmptyFrame Demo.sys 3 6) ev ev' := by
  rw [List.map_cons, List.map_nil, List.map_eq_singleton_iff] at h
  obtain ⟨x, rfl, h4⟩ := h
  rw [List.map_cons, List.map_cons, List.map_nil, List.map_eq_cons_iff] at h'
  obtain ⟨y, ys, rfl, h5, h6⟩ := h'
  rw [List.map_eq_singleton_iff] at h6
  obtain ⟨z, rfl, h6⟩ := h6
  refine .extra (.inl ⟨.inr ⟨rfl, fun _ _ _ hl => hl⟩, _, h5, fun v hv => ?_⟩) (.same ⟨_, _, h4, h6, rfl⟩ .nil)
  exact List.eq_of_mem_replicate (List.mem_of_mem_take hv)

/-- The hypotheses of `C99_dilute` can be met, with a width found: a frame certain of it, and the same frame with a black one before it. -/
example : ∃ ev a cw ch rh ev' a' cw' ch' rh', Returned Demo.sys none 3 6 (some Demo.half) ev a (some [⟨1, .fin false 1⟩, ⟨3, .fin true (-1)⟩]) cw rh ch ∧
    Returned Demo.sys none 3 6 (some Demo.half) ev' a' (some Demo.halfFound) cw' rh' ch' ∧ NoOom ev ∧ NoOom ev' ∧ (analysed ev).length = 1 ∧
    (analysed ev').length = 2 ∧ Diluted (SameFrame (3 * 6)) (EmptyFrame Demo.sys 3 6) (analysed ev) (analysed ev') ∧
    Unaffected Demo.sys 3 6 (analysed ev ++ analysed ev') ∧ Demo.sys.cfg.coeff.qmin ≤ 1 - (Demo.sys.cfg.inter.p : ℤ) ∧ 2 ≤ Demo.sys.cfg.sizeMax := by
  obtain ⟨ev, a, cw, ch, h1, h2, h3, h4⟩ := Demo.halfHistory (frames := [Demo.shares 6]) (n := 1)
    (lw := some [⟨1, .fin false 1⟩, ⟨3, .fin true (-1)⟩]) (lh := some [⟨6, .fin true (-1)⟩]) (by decide +kernel) (by decide +kernel) (by decide +kernel) (by decide +kernel)
  obtain ⟨ev', a', cw', ch', h1', h2', h3', h4'⟩ := Demo.halfHistory (frames := [List.replicate 18 (.fin false 0), Demo.shares 6]) (n := 2)
    (lw := some Demo.halfFound) (lh := some [⟨6, .fin true (-1)⟩]) (by decide +kernel) (by decide +kernel) (by decide +kernel) (by decide +kernel)
  refine ⟨ev, a, cw, ch, _, ev', a', cw', ch', _, h1, h1', h2, h2', ?_, ?_, ?_, Or.inl rfl, by decide +kernel, by decide +kernel⟩
  · rw [h3]
    simpa using congrArg List.length h4
  · rw [h3']
    simpa using congrArg List.length h4'
  · rw [h3, h3']
    exact Demo.withBlack h4 h4'

theorem diluted_calls {xs ys : List (List Fl)} (hd : Diluted (· = ·) (EmptyPicture s w h) xs ys) :
    ∀ {ev ev' : List (Call × Obs)}, ev.map (fun x => x.1.op) = xs.map (fun f => Op.analyze (some f)) →
      ev'.map (fun x => x.1.op) = ys.map (fun f => Op.analyze (some f)) → Diluted (SameFrame (w * h)) (EmptyFrame s w h) ev ev' := by
  induction hd with
  | nil =>
    intro ev ev' h h'
    rw [List.map_nil, List.map_eq_nil_iff] at h h'
    subst h h'
    exact .nil
  | same e _ ih =>
    intro ev ev' h h'
    rw [List.map_cons, List.map_eq_cons_iff] at h h'
    obtain ⟨x, xs, rfl, h2, h3⟩ := h
    obtain ⟨y, ys, rfl, h4, h5⟩ := h'
    exact .same ⟨_, _, h2, h4, by rw [e]⟩ (ih h3 h5)
  | extra e _ ih =>
    intro ev ev' h h'
    rw [List.map_cons, List.map_eq_cons_iff] at h'
    obtain ⟨y, ys, rfl, h4, h5⟩ := h'
    refine .extra ?_ (ih h h5)
    rcases e with ⟨e1, e2⟩ | ⟨e1, e2, e3, q, q0, q1, e4⟩
    · exact .inl ⟨e1, _, h4, fun v hv => e2 v (List.mem_of_mem_take hv)⟩
    · exact .inr ⟨e1, e2, e3, q, q0, q1, _, h4, by rw [e4, List.take_of_length_le (by simp)]⟩

/-- **C99** The same for two calls of `resdetect`, one with additional frames without content in its array. Where the spectrum of a frame could depend on
failing allocations (sides with large prime factors and the bundled transform) enough memory is asked for. -/
theorem C99_resdetect (hs : Build s) (hpr : Precise s.cfg) (hm : ValidMethod? m) (hp : ValidParams? s.cfg p) {k k' : ℕ} {image image' : List Fl}
    (himg : image.length ≤ s.cfg.sizeMax) (himg' : image'.length ≤ s.cfg.sizeMax) (hlen : k * (w * h) ≤ image.length) (hlen' : k' * (w * h) ≤ image'.length)
    (hframes : Diluted (· = ·) (EmptyPicture s w h) (framesOf image w h k) (framesOf image' w h k')) {ptr ptr' : Ptrs} {wd wd' wd1 wd1' : World} (hw : wd.WF)
    (hw' : wd'.WF) {o o' : Out} (hr : resdetect s (some image) k w h ptr m p wd = some ((RDEOK, o), wd1))
    (hr' : resdetect s (some image') k' w h ptr' m p wd' = some ((RDEOK, o'), wd1')) (hkp : k' ≤ 2 ^ s.cfg.inter.p) (hks : k' ≤ s.cfg.sizeMax)
    (heps : s.cfg.coeff.qmin ≤ 1 - (s.cfg.inter.p : ℤ))
    (hsafe : s.cfg.backend = .fftw ∨ (Smooth w ∧ Smooth h) ∨ (Plenty wd ∧ Plenty wd' ∧ ¬ HugeScores s w h)) :
    let ε : ℚ := 2 * pow2 (-s.cfg.inter.p) + pow2 (-23)
    let δ : ℚ := 3 * pow2 (-s.cfg.inter.p) + pow2 (-24)
    let t := val (effParams s.cfg (effMethod m) p).threshold
    (∀ l l', o.rw.map Buf.data = some l → o'.rw.map Buf.data = some l' → Weaker k k' ε w l l' ∧ Kept k k' δ t w l l') ∧
    (∀ l l', o.rh.map Buf.data = some l → o'.rh.map Buf.data = some l' → Weaker k k' ε h l l' ∧ Kept k k' δ t h l l') := by
  obtain ⟨ev, a, g1, g2, g3, g4, g5⟩ := C14_resdetect_history hs hm hp himg hlen hw hr
  obtain ⟨ev', a', g1', g2', g3', g4', g5'⟩ := C14_resdetect_history hs hm hp himg' hlen' hw' hr'
  have e1 := (all_analysed g3).1
  have e1' := (all_analysed g3').1
  refine C99_dilute hs hpr hm hp g2 g2' g1 g1' ?_ ?_ hkp hks heps ?_ (hsafe.imp_right (Or.imp_right ?_))
  · rw [e1]
    simpa using congrArg List.length g3
  · rw [e1']
    simpa using congrArg List.length g3'
  · rw [e1, e1']
    exact diluted_calls hframes g4 g4'
  · rintro ⟨q1, q2, q3⟩ x hx
    rw [e1, e1'] at hx
    rcases List.mem_append.mp hx with hx | hx
    · exact g5 q1 q3 x hx
    · exact g5' q2 q3 x hx

/-- The hypotheses of `C99_resdetect` can be met: the calls of the previous example. -/
example : ∃ (image image' : List Fl), 1 * (3 * 6) ≤ image.length ∧ 2 * (3 * 6) ≤ image'.length ∧
    Diluted (· = ·) (EmptyPicture Demo.sys 3 6) (framesOf image 3 6 1) (framesOf image' 3 6 2) ∧
    lists (resdetect Demo.sys (some image) 1 3 6 .all none (some Demo.half) Demo.w0) =
      some (RDEOK, some [⟨1, .fin false 1⟩, ⟨3, .fin true (-1)⟩], some [⟨6, .fin true (-1)⟩]) ∧
    lists (resdetect Demo.sys (some image') 2 3 6 .all none (some Demo.half) Demo.w0) = some (RDEOK, some Demo.halfFound, some [⟨6, .fin true (-1)⟩]) := by
  refine ⟨Demo.shares 6, List.replicate 18 (.fin false 0) ++ Demo.shares 6, by decide +kernel, by decide +kernel, ?_, by decide +kernel, by decide +kernel⟩
  rw [show framesOf (Demo.shares 6) 3 6 1 = [Demo.shares 6] by decide +kernel,
    show framesOf (List.replicate 18 (.fin false 0) ++ Demo.shares 6) 3 6 2 = [List.replicate 18 (.fin false 0), Demo.shares 6] by decide +kernel]
  exact .extra (.inl ⟨.inr ⟨rfl, fun _ _ _ hl => hl⟩, fun v hv => List.eq_of_mem_replicate hv⟩) (.same rfl .nil)

end Verif.Props
