import Verif.Props.Black
import Verif.Proofs.Flat

/-! # Pictures of one colour (C98) -/

namespace Verif.Props

open Spec

variable {s : Sys} {m : Option Method} {p : Option Params} {w h : ℕ} {ev : List (Call × Obs)} {a : Analysis}
  {rw rh : Option (List Res)} {cw ch : ℕ}

/-- The radices of a product of twos and threes. -/
theorem twosThrees_factors {n : ℕ} {fs : List (ℕ × ℕ)} (hn : TwosThrees n) (hfs : kfFactor n = some fs) (hst : Stages n fs) :
    ∀ x ∈ fs, (x.1 = 1 ∧ x.2 = 1) ∨ x.1 = 2 ∨ x.1 = 3 ∨ x.1 = 4 := by
  intro x hx
  rcases Nat.lt_or_ge n 2 with h1 | h1
  · obtain rfl : n = 1 := by have := hst.pos; omega
    rw [show kfFactor 1 = some [(1, 1)] by decide +kernel] at hfs
    cases hfs
    rw [List.mem_singleton] at hx
    subst hx
    exact .inl ⟨rfl, rfl⟩
  · rcases kfFactor_prime h1 hfs x hx with h4 | h4
    · exact .inr (.inr (.inr h4))
    · obtain ⟨i, j, rfl⟩ := hn
      have hd : x.1 ∣ 2 ^ i * 3 ^ j := by
        rw [← hst.prod]
        exact List.dvd_prod (List.mem_map_of_mem hx)
      rcases h4.dvd_mul.mp hd with hd | hd
      · exact .inr (.inl ((Nat.prime_dvd_prime_iff_eq h4 Nat.prime_two).mp (h4.dvd_of_dvd_pow hd)))
      · exact .inr (.inr (.inl ((Nat.prime_dvd_prime_iff_eq h4 Nat.prime_three).mp (h4.dvd_of_dvd_pow hd))))

/-- **C98** With sides that are products of twos and threes, the bundled transform of a picture of one colour is zero but for the first coefficient. -/
theorem C98_flat_spectrum_partial (hs : Build s) (hm : ValidMethod? m) (hp : ValidParams? s.cfg p) (hr : Reach s m w h p ev a) (hx : FlatExact s (w * h))
    (hw : TwosThrees w) (hh : TwosThrees h) {q : ℚ} (h0 : 0 ≤ q) (h1 : q ≤ 1) {x : Call × Obs} (hflat : FlatFrame (w * h) (.fin false q) x) {f : List Fl}
    (hf : Spectrum s a x.1 f) :
    ∃ D, 0 ≤ D ∧ D ≤ 4 * ((w * h : ℕ) : ℚ) ^ 2 ∧ ∀ i < w * h, ∀ v, f[i]? = some v → v = .fin false (if i = 0 then D else 0) := by
  have hinv := reach_inv hs hm hp hr
  have hc := hs.wf.coeff_wf
  have hk : s.cfg.kiss.WF := hx.same ▸ hc
  obtain ⟨image, o1, o2⟩ := hflat
  obtain ⟨im, plan, wd, e1, e2, e3⟩ := hf
  rw [o1] at e1
  cases e1
  obtain ⟨pl, e4, hgood⟩ := hinv.good.p
  rw [e2] at e4
  cases e4
  rw [hinv.width, hinv.height] at hgood e3
  cases hgood with
  | fftw b q hb' => rw [hx.backend] at hb'; cases hb'
  | kiss pl g _ =>
    have w0 : 0 < w := by rw [← g.n0]; exact g.stages0.pos
    have hh0 : 0 < h := by rw [← g.n1]; exact g.stages1.pos
    have hn1 : (1 : ℚ) ≤ ((w * h : ℕ) : ℚ) ^ 2 := one_le_pow₀ (by exact_mod_cast Nat.mul_pos w0 hh0)
    have hpp : (1 : ℚ) ≤ pow2 ((s.cfg.inter.p : ℤ) - 1) := by
      rw [← show pow2 0 = 1 by simp [pow2]]
      exact pow2_le (by have := hs.wf.inter_wf.p_pos; omega)
    have hlim : 4 * ((w * h : ℕ) : ℚ) ^ 2 ≤ pow2 (s.cfg.coeff.emax - 2) := le_trans (le_mul_of_one_le_right (by positivity) hpp) hx.room
    have hprev := pow2_prev_lt (s.cfg.coeff.emax - 1)
    rw [show s.cfg.coeff.emax - 1 - 1 = s.cfg.coeff.emax - 2 by ring] at hprev
    have hlim' : 4 * ((w : ℚ) * h) ^ 2 * 1 ≤ pow2 (s.cfg.kiss.emax - 1) := by
      rw [← hx.same]
      push_cast at hlim
      linarith
    have hr1 : s.cfg.coeff.rnd q ≤ 1 := by
      have := s.cfg.coeff.rnd_mono hc.p_pos h1
      rwa [s.cfg.coeff.rnd_one hc] at this
    have hr0 : 0 ≤ s.cfg.coeff.rnd q := by
      have := s.cfg.coeff.rnd_mono hc.p_pos h0
      rwa [s.cfg.coeff.rnd_zero] at this
    have hconv : s.cfg.coeff.conv (.fin false q) = .fin false (s.cfg.coeff.rnd q) := deliver_nn _ h0 (by
      have := pow2_prev_lt s.cfg.coeff.emax
      linarith)
    obtain ⟨D, ⟨d, rfl, -, d0, d1⟩, hD⟩ := (flat_evens hk hx.same hx.units).transform (black_zeros hx.tables) g
      (twosThrees_factors (by rw [g.n0]; exact hw) g.fac0 g.stages0) (twosThrees_factors (by rw [g.n1]; exact hh) g.fac1 g.stages1) (b := 1) (v := .fin false (s.cfg.coeff.rnd q))
      ⟨_, rfl, by rw [← hx.same]; exact s.cfg.coeff.rnd_idem hc.p_pos q, hr0, hr1⟩ hlim' e3 (by
        intro x hx
        rw [o2, List.map_replicate, hconv] at hx
        exact List.eq_of_mem_replicate hx)
    refine ⟨d, d0, by push_cast; linarith, fun i hi v hv => ?_⟩
    have := hD i hi v hv
    split at this
    · rw [this, if_pos ‹_›]
    · rw [this, if_neg ‹_›]

/-- **C98** After frames of one colour each, of sides that are products of twos and threes, every candidate reported with the bundled transform has confidence
zero, by every method; with a positive threshold only the input size is reported. Missing: other sides, for which it is false (`C98_flat_fails`, `C98_flat_five_fails`), samples outside
0 to 1, and FFTW. -/
theorem C98_flat_partial (hs : Build s) (hpr : Precise s.cfg) (hm : ValidMethod? m) (hp : ValidParams? s.cfg p) (hno : NoOom ev)
    (hr : Returned s m w h p ev a rw cw rh ch) (hk : (analysed ev).length ≤ s.cfg.sizeMax) (hx : FlatExact s (w * h)) (hw : TwosThrees w) (hh : TwosThrees h)
    (hflat : ∀ x ∈ analysed ev, ∃ q, 0 ≤ q ∧ q ≤ 1 ∧ FlatFrame (w * h) (.fin false q) x) :
    let t := s.cfg.inter.conv (effParams s.cfg (effMethod m) p).threshold
    (∀ l, rw = some l → Silent t w l) ∧ (∀ l, rh = some l → Silent t h l) := by
  have hF := hs.wf.inter_wf
  have hinv := reach_inv hs hm hp hr.1
  obtain ⟨fs, h1, -, -⟩ := (returned_got hs hm hp hr).inv.scores hno
  obtain ⟨w0, h0, wp, hp', r0, _⟩ := returned_sizes hs hpr hm hp hr
  obtain ⟨hne, hfl, hX, hY⟩ := returned_listed hs hm hp hno hk hr h1
  have hone : (1 : ℚ) ≤ pow2 (s.cfg.coeff.emax - 2) := by
    have hn1 : (1 : ℚ) ≤ ((w * h : ℕ) : ℚ) ^ 2 := one_le_pow₀ (by exact_mod_cast Nat.mul_pos w0 h0)
    have hpp : (1 : ℚ) ≤ pow2 ((s.cfg.inter.p : ℤ) - 1) := by
      rw [← show pow2 0 = 1 by simp [pow2]]
      exact pow2_le (by have := hF.p_pos; omega)
    have := hx.room
    nlinarith
  have hdot : ∀ f ∈ fs, f.length = w * h ∧ ∃ D, 0 ≤ D ∧ D * pow2 ((s.cfg.inter.p : ℤ) - 1) ≤ pow2 (s.cfg.coeff.emax - 2) ∧
      ∀ i < w * h, ∀ v, f[i]? = some v → v = .fin false (if i = 0 then D else 0) := by
    intro f hf
    obtain ⟨x, hxe, hsp⟩ : ∃ x ∈ analysed ev, Spectrum s a x.1 f := by
      have : ∀ {xs : List (Call × Obs)} {gs : List (List Fl)}, List.Forall₂ (fun x f => Spectrum s a x.1 f) xs gs → f ∈ gs → ∃ x ∈ xs, Spectrum s a x.1 f := by
        intro xs gs h hf
        induction h with
        | nil => cases hf
        | cons h _ ih =>
          rcases List.mem_cons.mp hf with rfl | hf
          · exact ⟨_, by simp, h⟩
          · obtain ⟨x, hx, hs⟩ := ih hf
            exact ⟨x, by simp [hx], hs⟩
      exact this h1 hf
    obtain ⟨q, q0, q1, hq⟩ := hflat x hxe
    obtain ⟨D, d0, d1, d2⟩ := C98_flat_spectrum_partial hs hm hp hr.1 hx hw hh q0 q1 hq hsp
    refine ⟨spectrum_length hs hm hp hr.1 (List.mem_of_mem_filter hxe) hsp, D, d0, ?_, d2⟩
    exact le_trans (mul_le_mul_of_nonneg_right d1 (pow2_pos _).le) hx.room
  intro t
  constructor
  · intro l e
    refine listed_silent (hX l e) fun x hx1 hx2 => meanAt_zero hF (fun f hf => ?_) hne
    obtain ⟨hlen, D, d0, d1, d2⟩ := hdot f hf
    refine frameScore_dot hF hpr hs.wf.coeff_wf hx.eps hx.order hone d0 d1 hp' (by omega) h0 r0 hx1 hx2 fun y hy z hz' => ?_
    have hlt : y * w + z < w * h := by nlinarith
    have := d2 _ hlt _ (List.getElem?_eq_getElem (by omega))
    unfold rows
    rw [List.getElem?_eq_getElem (by omega), Option.getD_some, this]
    by_cases hz : z = 0
    · by_cases hi : y * w + z = 0
      · exact .inr ⟨hz, by rw [if_pos hi]⟩
      · exact .inl (by rw [if_neg hi])
    · exact .inl (by rw [if_neg (by omega)])
  · intro l e
    refine listed_silent (hY l e) fun x hx1 hx2 => meanAt_zero hF (fun f hf => ?_) hne
    obtain ⟨hlen, D, d0, d1, d2⟩ := hdot f hf
    refine frameScore_dot hF hpr hs.wf.coeff_wf hx.eps hx.order hone d0 d1 wp (by omega) w0 r0 hx1 hx2 fun y hy z hz' => ?_
    have hlt : z * w + y < w * h := by nlinarith
    have := d2 _ hlt _ (List.getElem?_eq_getElem (by omega))
    unfold cols rows
    rw [List.getElem?_eq_getElem (by omega), Option.getD_some, this]
    by_cases hz : z = 0
    · by_cases hi : z * w + y = 0
      · exact .inr ⟨hz, by rw [if_pos hi]⟩
      · exact .inl (by rw [if_neg hi])
    · refine .inl ?_
      have : 0 < z * w := Nat.mul_pos (by omega) w0
      rw [if_neg (by omega)]

namespace Demo

open Verif.Demo

/-- `cos` and `sin` of `-2*pi*k/6`, rounded to single precision. -/
def tw6 : List (Cpx Fl) := [cf 1 0, cf (1/2) (-14529495/16777216), cf (-1/2) (-14529495/16777216), cf (-1) (-4626585/37778931862957161709568),
  cf (-1/2) (14529495/16777216), cf (1/2) (14529495/16777216)]

/-- `cos` and `sin` of `-pi*((i+1)/6+1/2)`, rounded to single precision. -/
def stw6 : List (Cpx Fl) := [cf (-1/2) (-14529495/16777216), cf (-14529495/16777216) (-1/2), cf (-1) (-4626585/37778931862957161709568)]

/-- `cos` and `sin` of `-pi*i/12`, rounded to single precision. -/
def sh6 : List (Cpx Fl) := [cf 1 0, cf (8102773/8388608) (-4342263/16777216), cf (14529495/16777216) (-1/2), cf (11863283/16777216) (-11863283/16777216),
  cf (1/2) (-14529495/16777216), cf (4342263/16777216) (-8102773/8388608)]

/-- `cos` and `sin` of `-2*pi*k/5`, rounded to single precision. -/
def tw5 : List (Cpx Fl) := [cf 1 0, cf (5184445/16777216) (-15956081/16777216), cf (-13573053/16777216) (-1232675/2097152),
  cf (-13573053/16777216) (1232675/2097152), cf (5184445/16777216) (15956081/16777216)]

/-- `cos` and `sin` of `-pi*((i+1)/5+1/2)`, rounded to single precision. -/
def stw5 : List (Cpx Fl) := [cf (-1232675/2097152) (-13573053/16777216), cf (-15956081/16777216) (-5184445/16777216)]

/-- `cos` and `sin` of `-pi*i/10`, rounded to single precision. -/
def sh5 : List (Cpx Fl) := [cf 1 0, cf (15956081/16777216) (-5184445/16777216), cf (13573053/16777216) (-1232675/2097152),
  cf (1232675/2097152) (-13573053/16777216), cf (5184445/16777216) (-15956081/16777216)]

/-- A platform with the given tables for the length `n` and the correct ones for the length 1. -/
def rowSys (n : ℕ) (tw stw sh : List (Cpx Fl)) : Sys := ⟨lp64 .kiss, { env7 with
  twiddle := fun k i => if k = n then (tw[i]?).getD (cf 0 0) else cf 1 0
  superTwiddle := fun k i => if k = n then (stw[i]?).getD (cf 0 0) else cf 0 (-1)
  shift := fun k i => if k = n then (sh[i]?).getD (cf 0 0) else cf 1 0 }⟩

section
variable {n : ℕ} {tw stw sh : List (Cpx Fl)}

theorem rowSys_precise : Precise (rowSys n tw stw sh).cfg := ⟨demo_precise.sides, demo_precise.room⟩

theorem rowSys_half : ValidParams? (rowSys n tw stw sh).cfg (some half) := half_valid7

theorem rowSys_exact
    (h1 : ∀ k < n, ((tw[k]?).getD (cf 0 0)).r.isfinite = true ∧ ((tw[k]?).getD (cf 0 0)).i.isfinite = true)
    (h2 : ∀ k < n / 2, ((stw[k]?).getD (cf 0 0)).r.isfinite = true ∧ ((stw[k]?).getD (cf 0 0)).i.isfinite = true)
    (h3 : ∀ k < n, ((sh[k]?).getD (cf 0 0)).r.isfinite = true ∧ ((sh[k]?).getD (cf 0 0)).r.signbit = false ∧ ((sh[k]?).getD (cf 0 0)).i.isfinite = true)
    (h4 : (tw[0]?).getD (cf 0 0) = cf 1 0) (h5 : (sh[0]?).getD (cf 0 0) = cf 1 0)
    (h6 : 4 * ((n * 1 : ℕ) : ℚ) ^ 2 * pow2 ((binary64.p : ℤ) - 1) ≤ pow2 (binary32.emax - 2)) : FlatExact (rowSys n tw stw sh) (n * 1) where
  backend := rfl
  tables := {
    tw := by
      intro k i hi
      by_cases hn : k = n
      · subst hn
        simp only [rowSys, if_true]
        exact h1 i hi
      · simp only [rowSys, hn, if_false]
        exact ⟨rfl, rfl⟩
    stw := by
      intro k i hi
      by_cases hn : k = n
      · subst hn
        simp only [rowSys, if_true]
        exact h2 i hi
      · simp only [rowSys, hn, if_false]
        exact ⟨rfl, rfl⟩
    shift := by
      intro k i hi
      by_cases hn : k = n
      · subst hn
        simp only [rowSys, if_true]
        exact h3 i hi
      · simp only [rowSys, hn, if_false]
        exact ⟨rfl, by decide, rfl⟩ }
  units := {
    tw := by
      intro k _
      have e : (rowSys n tw stw sh).env.twiddle k 0 = cf 1 0 := by
        by_cases hn : k = n
        · simp only [rowSys, hn, if_true, h4]
        · simp only [rowSys, hn, if_false]
      rw [e]
      exact ⟨by decide, false, by decide⟩
    shift := by
      intro k _
      have e : (rowSys n tw stw sh).env.shift k 0 = cf 1 0 := by
        by_cases hn : k = n
        · simp only [rowSys, hn, if_true, h5]
        · simp only [rowSys, hn, if_false]
      rw [e]
      exact ⟨by decide, false, by decide⟩ }
  same := rfl
  eps := (by decide : binary32.qmin ≤ 1 - (binary64.p : ℤ))
  order := (by decide : binary32.emax ≤ binary64.emax)
  room := h6

/-- What `resdetect` makes of a row of `n` equal samples with the bundled transform. -/
theorem rowSys_history {v : Fl} {lw lh : Option (List Res)} {k : Option Method} (hk : ValidMethod? k) (hn : n ≤ 2 ^ 64 - 1)
    (hr : lists (resdetect (rowSys n tw stw sh) (some (List.replicate n v)) 1 n 1 .all k (some half) Demo.w0) = some (RDEOK, lw, lh)) :
    ∃ ev a cw ch, Returned (rowSys n tw stw sh) k n 1 (some half) ev a lw cw lh ch ∧ NoOom ev ∧ (analysed ev).length = 1 ∧ ∀ x ∈ analysed ev, FlatFrame (n * 1) v x := by
  unfold lists at hr
  rw [Option.map_eq_some_iff] at hr
  obtain ⟨⟨⟨e, out⟩, wd'⟩, h1, h2⟩ := hr
  simp only [Prod.mk.injEq] at h2
  obtain ⟨rfl, rfl, rfl⟩ := h2
  obtain ⟨ev, a, h3, h4, h5, h6, _⟩ := C14_resdetect_history (s := rowSys n tw stw sh) (Demo.lp64_build _ _) hk rowSys_half
    (by rw [List.length_replicate]; exact hn) (by simp) Demo.w0_wf h1
  have h7 := (all_analysed h5).1
  have h8 : framesOf (List.replicate n v) n 1 1 = [List.replicate n v] := by simp [framesOf, frameOf]
  rw [h8] at h6
  refine ⟨ev, a, _, _, h3, h4, by rw [h7]; simpa using congrArg List.length h6, ?_⟩
  rw [h7]
  simp only [List.map_cons, List.map_nil, List.map_eq_cons_iff, List.map_eq_nil_iff] at h6
  obtain ⟨x, _, rfl, h6, rfl⟩ := h6
  intro y hy
  rw [List.mem_singleton] at hy
  subst hy
  exact ⟨_, h6, by simp⟩

end

def sys6 : Sys := rowSys 6 tw6 stw6 sh6

theorem exact6 : FlatExact sys6 (6 * 1) :=
  rowSys_exact (by decide +kernel) (by decide +kernel) (by decide +kernel) (by decide +kernel) (by decide +kernel) (by decide +kernel)

def sys5 : Sys := rowSys 5 tw5 stw5 sh5

theorem exact5 : FlatExact sys5 (5 * 1) :=
  rowSys_exact (by decide +kernel) (by decide +kernel) (by decide +kernel) (by decide +kernel) (by decide +kernel) (by decide +kernel)

end Demo

/-- The hypotheses of `C98_flat_partial` can be met: a white row of six samples. -/
example : ∃ ev a l cw rh ch, Returned Demo.sys6 none 6 1 (some Demo.half) ev a (some l) cw rh ch ∧ l = [sentinel 6] := by
  obtain ⟨r, hr⟩ : ∃ r, lists (resdetect Demo.sys6 (some (List.replicate 6 (.fin false 1))) 1 6 1 .all none (some Demo.half) Demo.w0) = some (RDEOK, some [⟨6, .fin true (-1)⟩], r) :=
    ⟨some [⟨1, .fin true (-1)⟩], by decide +kernel⟩
  obtain ⟨l, hl⟩ : ∃ l : List Res, [⟨6, .fin true (-1)⟩] = l := ⟨_, rfl⟩
  rw [hl] at hr
  clear hl
  obtain ⟨ev, a, cw, ch, h1, h2, h3, h4⟩ := Demo.rowSys_history Demo.none_method (by norm_num) hr
  have := (C98_flat_partial (s := Demo.sys6) (Demo.lp64_build _ _) Demo.rowSys_precise Demo.none_method Demo.rowSys_half h2 h1
    (by rw [h3]; decide +kernel) Demo.exact6 ⟨1, 1, rfl⟩ ⟨0, 0, rfl⟩ (fun x hx => ⟨1, by norm_num, le_rfl, h4 x hx⟩)).1 l rfl
  exact ⟨ev, a, l, cw, _, ch, h1, this.2 (by decide +kernel)⟩

/-- **C98** The factor five is not harmless: in a row of five samples of the grey level 85 of 255 the width 2 is found with full confidence, although everything
else that `C98_flat_partial` asks for is given. -/
theorem C98_flat_five_fails : ∃ (s : Sys) (ev : List (Call × Obs)) (a : Analysis) (l : List Res) (rh : Option (List Res)) (cw ch : ℕ) (p : Option Params),
    Build s ∧ Precise s.cfg ∧ ValidParams? s.cfg p ∧ NoOom ev ∧ Returned s none 5 1 p ev a (some l) cw rh ch ∧ (analysed ev).length = 1 ∧ FlatExact s (5 * 1) ∧
    (∀ x ∈ analysed ev, FlatFrame (5 * 1) (s.cfg.coeff.conv (.fin false (85 / 255))) x) ∧
    0 < val (s.cfg.inter.conv (effParams s.cfg (effMethod none) p).threshold) ∧ ⟨2, .fin false 1⟩ ∈ l := by
  obtain ⟨ev, a, cw, ch, h1, h2, h3, h4⟩ := Demo.rowSys_history (n := 5) (tw := Demo.tw5) (stw := Demo.stw5) (sh := Demo.sh5)
    (v := binary32.conv (.fin false (85 / 255))) (k := none) (lw := some [⟨2, .fin false 1⟩, ⟨5, .fin true (-1)⟩]) (lh := some [⟨1, .fin true (-1)⟩])
    Demo.none_method (by norm_num) (by decide +kernel)
  exact ⟨Demo.sys5, ev, a, _, _, cw, ch, some Demo.half, Demo.lp64_build _ _, Demo.rowSys_precise, Demo.rowSys_half, h2, h1, h3, Demo.exact5, h4, by decide +kernel, by simp⟩

end Verif.Props
