import Verif.Proofs.Configure
import Verif.Spec.Demo
import Verif.Spec.Limit

/-!
# What the options of a build do (C96)
-/

namespace Verif.Props

open Spec

variable {p : Platform} {o : Options} {c : Cfg}

/-- **C96** Whatever the options, if the library builds on a 64 bit host, everything that the theorems about the library assume of a
build holds. -/
theorem C96_build (hp : Wide p) (h : configured p o = some c) (e : Env) : Build ⟨c, e⟩ := by
  obtain ⟨a, b, _, _, _, h1, h2, rfl⟩ := configured_some h
  have hs := hp.size
  have hi := hp.int
  have hwf : ∀ a, (p.fmt a).WF := by
    intro a
    cases a
    · constructor <;> simp [Platform.fmt, binary32]
    · constructor <;> simp [Platform.fmt, binary64]
    · exact hp.long_wf
  have hby : ∀ a, 4 ≤ p.bytes a := by
    intro a
    have := hp.long_size
    cases a <;> simp only [Platform.bytes] <;> omega
  have hm1 : pixelLimit p o ≤ 2 ^ 64 - 1 := Token.value_le hp _
  have hm2 : rangeDefault p o ≤ 2 ^ 64 - 1 := Token.value_le hp _
  unfold buildCfg
  generalize pixelLimit p o = n at *
  generalize rangeDefault p o = r at *
  have hf := hp.fast32
  have hptr := hp.ptr
  obtain ⟨hr1, hr2⟩ := hp.res
  have hn : n % (p.sizeMax + 1) = n := Nat.mod_eq_of_lt (by omega)
  have hr : r % (p.sizeMax + 1) = r := Nat.mod_eq_of_lt (by omega)
  have hk : (if textPrec o = .f then 4 else 8) ≤ 8 ∧ 0 < (if textPrec o = .f then 4 else 8) := by split <;> omega
  generalize (if textPrec o = .f then 4 else 8) = k at *
  refine ⟨⟨?_, ?_, ?_, ?_, ?_, ?_, hwf _, hwf _, ?_, ?_, hr1, hk.2, ?_, hp.int_long⟩, fun _ => ⟨?_, ?_, ?_⟩, ?_⟩
  all_goals simp only [hn, hr]
  · exact h1
  · omega
  · by_cases hsm : n ≤ 2 ^ 32 - 1
    · simp only [hsm, decide_true, if_true]; omega
    · simp only [hsm, decide_false, Bool.false_eq_true, if_false]; omega
  · by_cases hsm : n ≤ 2 ^ 32 - 1
    · simp only [hsm, decide_true, if_true]
    · simp only [hsm, decide_false, Bool.false_eq_true, if_false]; omega
  · exact h2
  · omega
  · have := hby a; omega
  · have := hby b; omega
  · omega
  · omega
  · intro m hm _
    have : 2 * k * (m + 1) ≤ 16 * (m + 1) := Nat.mul_le_mul_right _ (by omega)
    omega
  · intro m hm _
    have h3 : 2 * k * (m - 1) ≤ 16 * (m - 1) := Nat.mul_le_mul_right _ (by omega)
    have h4 : 2 * k * (m * 3 / 2) ≤ 16 * (m * 3 / 2) := Nat.mul_le_mul_right _ (by omega)
    omega
  · intro m hm _
    have : (m + 1) * p.szRes ≤ (m + 1) * 16 := Nat.mul_le_mul_left _ hr2
    omega

/-- **C96** Values that are documented are accepted, and what is built is what was asked for: coefficients of the precision asked for,
intermediate results of the precision asked for or of that of the coefficients if that is more, the limits asked for, and FFTW for
the precision of the coefficients if it is there and not disabled. -/
theorem C96_asked {a b : Prec} {n r : ℕ} (hp : Wide p) (ha : Asks .f o.coeff a) (hb : Asks .d o.inter b)
    (hn : Limit p.sizeMax o.pixelMax n) (hr : Limit 12 o.defaultRange r) :
    ∃ c, configured p o = some c ∧ c.coeff = formatOf p a ∧ c.inter = formatOf p (finer a b) ∧ c.pixelMax = n ∧
      c.defaultRange = r ∧ c.backend = (if o.withFftw = true ∧ p.fftw a = true then .fftw else .kiss) ∧
      c.kiss = (if a = .f then binary32 else binary64) := by
  obtain ⟨hc, ht⟩ := coeffPrec_asks (p := p) ha
  obtain ⟨hn1, hn2, hn3⟩ := pixels_limit hp hn
  obtain ⟨hr1, hr2, hr3⟩ := range_limit hp hr
  obtain ⟨c, h0, h1, h2, h3, h4, h5, h6⟩ := configured_of hc (interPrec_asks ha hb) (fun _ => ht.symm) hn1 hn2 hr1 hr2
  refine ⟨c, h0, by rw [h1, fmt_formatOf], by rw [h2, fmt_formatOf], ?_, ?_, ?_, by rw [h6, ht]⟩
  · rw [h3, Nat.mod_eq_of_lt (by omega)]
  · rw [h4, Nat.mod_eq_of_lt (by omega)]
  · rw [h5]
    simp only [usesFftw, ht, Bool.and_eq_true]

/-- **C96** The types of a build with documented values: their sizes, 32 bits to store the number of a candidate if the number of
pixels allows it, and otherwise those of the host. -/
theorem C96_types {a b : Prec} {n r : ℕ} (hp : Wide p) (ha : Asks .f o.coeff a) (hb : Asks .d o.inter b)
    (hn : Limit p.sizeMax o.pixelMax n) (hr : Limit 12 o.defaultRange r) (h : configured p o = some c) :
    c.szCoeff = sizeIn p a ∧ c.szInter = sizeIn p (finer a b) ∧ c.szKiss = (if a = .f then 4 else 8) ∧
      c.szFft = 2 * 4 + 64 * 4 + 2 * c.szKiss ∧ c.szFftr = 3 * p.szPtr ∧ c.szRes = p.szRes ∧
      (n < 2 ^ 32 → c.storMax = 2 ^ 32 - 1 ∧ c.idxMax = p.fast32Max) ∧
      (2 ^ 32 ≤ n → c.storMax = p.sizeMax ∧ c.idxMax = p.sizeMax) ∧
      c.sizeMax = p.sizeMax ∧ c.intMax = p.intMax ∧ c.longMax = p.longMax ∧ c.littleEndian = p.littleEndian ∧
      c.charSigned = p.charSigned := by
  obtain ⟨a', b', ha', hb', _, _, _, rfl⟩ := configured_some h
  obtain ⟨hc, ht⟩ := coeffPrec_asks (p := p) ha
  have hi := interPrec_asks (p := p) ha hb
  obtain rfl : a = a' := Option.some.inj (hc.symm.trans ha')
  obtain rfl : finer a b = b' := Option.some.inj (hi.symm.trans hb')
  obtain ⟨hn1, _, _⟩ := pixels_limit hp hn
  have hby : ∀ a, p.bytes a = sizeIn p a := by
    intro a
    cases a <;> rfl
  refine ⟨hby _, hby _, by simp only [buildCfg, ht], rfl, rfl, rfl, fun h => ?_, fun h => ?_, rfl, rfl, rfl, rfl, rfl⟩
  · have : n ≤ 2 ^ 32 - 1 := by omega
    simp only [buildCfg, hn1, this, decide_true, if_true, and_self]
  · have : ¬ n ≤ 2 ^ 32 - 1 := by omega
    simp only [buildCfg, hn1, this, decide_false, Bool.false_eq_true, if_false, and_self]

/-- **C96** Intermediate results never have less precision than coefficients, whatever the options. -/
theorem C96_inter (hp : Wide p) (h : configured p o = some c) : c.coeff.p ≤ c.inter.p := by
  obtain ⟨a, b, ha, hb, _, _, _, rfl⟩ := configured_some h
  have hl := hp.long_p
  have h1 := interPrec_code ha hb
  cases a <;> cases b <;> simp only [buildCfg, Platform.fmt, binary32, binary64] <;> first | omega | exact absurd h1 (by decide)

/-- **C96** The theorems that need image sides to be exact in intermediate results hold of every build with documented values but the
one in which everything is `float`. -/
theorem C96_precise {a b : Prec} {n r : ℕ} (hp : Wide p) (ha : Asks .f o.coeff a) (hb : Asks .d o.inter b)
    (hn : Limit p.sizeMax o.pixelMax n) (hr : Limit 12 o.defaultRange r) (h : configured p o = some c) :
    Precise c ↔ a ≠ .f ∨ b ≠ .f := by
  obtain ⟨c', h0, _, hi, _⟩ := C96_asked hp ha hb hn hr
  obtain rfl : c = c' := Option.some.inj (h.symm.trans h0)
  obtain ⟨_, _, _, _, _, _, _, hc⟩ := configured_some h
  have him : c.intMax = 2 ^ 31 - 1 := by rw [hc]; exact hp.int
  have hl := hp.long_p
  have hpow : (2 : ℕ) ^ 53 ≤ 2 ^ p.long.p := Nat.pow_le_pow_right (by norm_num) hl
  have hroom := hp.long_room
  constructor
  · rintro ⟨h1, _⟩
    by_contra hh
    simp only [not_or, not_not] at hh
    rw [hi, hh.1, hh.2, him] at h1
    simp [finer, formatOf, binary32] at h1
  · intro hh
    constructor
    · rw [hi, him]
      cases a <;> cases b <;> simp [finer, formatOf, binary64] at hh ⊢ <;> omega
    · rw [hi]
      cases a <;> cases b <;> simp [finer, formatOf, binary64] at hh ⊢ <;> omega

/-- **C96** A precision of coefficients that means nothing, and limits of nothing, stop the build. -/
theorem C96_refuses {s : String} (h : (Unknown p s ∧ o.coeff = some (.name s)) ∨
    (∃ n : UInt64, (n.toNat = 0 ∨ 3 < n.toNat) ∧ o.coeff = some (.number n)) ∨
    (p.macros s = none ∧ (o.pixelMax = some (.name s) ∨ o.defaultRange = some (.name s))) ∨
    o.pixelMax = some (.number 0) ∨ o.defaultRange = some (.number 0)) : configured p o = none := by
  cases hc : configured p o with
  | none => rfl
  | some c =>
    obtain ⟨a, b, ha, _, _, h1, h2, _⟩ := configured_some hc
    have h3 := precOf_pos ha
    rcases h with ⟨⟨u1, u2, u3, u4⟩, h⟩ | ⟨n, hn, h⟩ | ⟨hm, h | h⟩ | h | h
    · simp [h, Token.value, precMacros, u1, u2, u3, u4] at h3
      cases a <;> simp [Prec.code] at h3
    · simp only [h, Option.getD_some, Token.value] at h3
      cases a <;> simp only [Prec.code] at h3 <;> omega
    · simp [pixelLimit, h, Token.value, hm] at h1
    · simp [rangeDefault, h, Token.value, hm] at h2
    · simp [pixelLimit, h, Token.value] at h1
    · simp [rangeDefault, h, Token.value] at h2

/-- **C96** (fails) A precision of intermediate results that means nothing, such as `--inter-precision=double`, does not stop the build
as the directive for invalid values says: intermediate results get the precision of the coefficients, that is `float` rather than
the default `double` if nothing else is given, with which the theorems that need exact sides do not hold. -/
theorem C96_unknown_inter_fails {a : Prec} {n r : ℕ} {s : String} (hp : Wide p) (ha : Asks .f o.coeff a) (hs : Unknown p s)
    (hb : o.inter = some (.name s)) (hn : Limit p.sizeMax o.pixelMax n) (hr : Limit 12 o.defaultRange r) :
    ∃ c, configured p o = some c ∧ c.coeff = formatOf p a ∧ c.inter = formatOf p a ∧ (Precise c ↔ a ≠ .f) := by
  obtain ⟨hc, ht⟩ := coeffPrec_asks (p := p) ha
  obtain ⟨hn1, hn2, hn3⟩ := pixels_limit hp hn
  obtain ⟨hr1, hr2, hr3⟩ := range_limit hp hr
  obtain ⟨c, h0, h1, h2, _⟩ := configured_of hc (interPrec_unknown ha hs hb) (fun _ => ht.symm) hn1 hn2 hr1 hr2
  refine ⟨c, h0, by rw [h1, fmt_formatOf], by rw [h2, fmt_formatOf], ?_⟩
  obtain ⟨_, _, _, _, _, _, _, hc⟩ := configured_some h0
  have him : c.intMax = 2 ^ 31 - 1 := by rw [hc]; exact hp.int
  have hl := hp.long_p
  have hpow : (2 : ℕ) ^ 53 ≤ 2 ^ p.long.p := Nat.pow_le_pow_right (by norm_num) hl
  have hroom := hp.long_room
  constructor
  · rintro ⟨h3, _⟩ rfl
    rw [h2, him] at h3
    simp [Platform.fmt, binary32] at h3
  · intro hh
    constructor
    · rw [h2, him]
      cases a <;> simp [Platform.fmt, binary64] at hh ⊢; omega
    · rw [h2]
      cases a <;> simp [Platform.fmt, binary64] at hh ⊢; omega

/-- **C96** (fails) The number of a precision is taken by the compiler for the precision, but not by `configure`: with
`--coeff-precision=2` coefficients are `double`, but their transform is calculated in `float`, or, if FFTW for `float` is installed,
the build fails. -/
theorem C96_number_fails {n r : ℕ} (hp : Wide p) (ha : o.coeff = some (.number 2)) (hb : o.inter = none)
    (hn : Limit p.sizeMax o.pixelMax n) (hr : Limit 12 o.defaultRange r) :
    (o.withFftw = true ∧ p.fftw .f = true → configured p o = none) ∧
    (¬(o.withFftw = true ∧ p.fftw .f = true) → ∃ c, configured p o = some c ∧ c.backend = .kiss ∧ c.coeff = binary64 ∧
      c.kiss = binary32) := by
  have hc : coeffPrec p o = some .d := by simp [coeffPrec, ha, Token.value, precOf]
  have hi : interPrec p o = some .d := by simp [interPrec, ha, hb, Token.value, precOf, precMacros]
  have ht : textPrec o = .f := by simp [textPrec, ha]
  constructor
  · rintro ⟨h1, h2⟩
    cases h : configured p o with
    | none => rfl
    | some c =>
      obtain ⟨a, b, hca, _, hu, _⟩ := configured_some h
      have := hu (by simp [usesFftw, ht, h1, h2])
      rw [hc] at hca
      cases hca
      rw [ht] at this
      cases this
  · intro h
    have hu : usesFftw p o = false := by
      simp only [usesFftw, ht, Bool.and_eq_false_iff]
      by_contra hh
      simp only [not_or, Bool.not_eq_false] at hh
      exact h hh
    obtain ⟨hn1, hn2, hn3⟩ := pixels_limit hp hn
    obtain ⟨hr1, hr2, hr3⟩ := range_limit hp hr
    obtain ⟨c, h0, h1, _, _, _, h5, h6⟩ := configured_of hc hi (by simp [hu]) hn1 hn2 hr1 hr2
    exact ⟨c, h0, by rw [h5, hu]; rfl, h1, by rw [h6, ht]; rfl⟩

/-- **C96** On a 32 bit host, what builds is sound, and with the number of pixels limited to a hundred million everything the theorems
about the library assume of a build holds; C86 carries them over to images of that size without the limit.  Partial: limits that are
not 0 as `size_t`. -/
theorem C96_narrow_partial {P : ℕ} (hp : Narrow p) (h : configured p o = some c) (hl : 0 < c.pixelMax) (hr : 0 < c.defaultRange) (e : Env) (hP : 0 < P)
    (hPc : P ≤ c.pixelMax) (hPm : P ≤ 100000000) : c.WF ∧ Build (relimit ⟨c, e⟩ P c.idxMax c.storMax) := by
  obtain ⟨a, b, _, _, _, h1, h2, rfl⟩ := configured_some h
  have hs := hp.size
  have hi := hp.int
  have hwf : ∀ a, (p.fmt a).WF := by
    intro a
    cases a
    · constructor <;> simp [Platform.fmt, binary32]
    · constructor <;> simp [Platform.fmt, binary64]
    · exact hp.long_wf
  have hby : ∀ a, 4 ≤ p.bytes a := by
    intro a
    have := hp.long_size
    cases a <;> simp only [Platform.bytes] <;> omega
  have hf := hp.fast32
  have hptr := hp.ptr
  obtain ⟨hr1, hr2⟩ := hp.res
  have hk : (if textPrec o = .f then 4 else 8) ≤ 8 ∧ 0 < (if textPrec o = .f then 4 else 8) := by split <;> omega
  unfold relimit
  unfold buildCfg at *
  simp only at *
  generalize pixelLimit p o = n at *
  generalize rangeDefault p o = r at *
  generalize (if textPrec o = .f then 4 else 8) = k at *
  have hnl : n % (p.sizeMax + 1) ≤ p.sizeMax := Nat.le_of_lt_succ (Nat.mod_lt _ (Nat.succ_pos _))
  have hrl : r % (p.sizeMax + 1) ≤ p.sizeMax := Nat.le_of_lt_succ (Nat.mod_lt _ (Nat.succ_pos _))
  generalize n % (p.sizeMax + 1) = N at *
  generalize r % (p.sizeMax + 1) = R at *
  have hidx : N ≤ (if decide (n ≤ 2 ^ 32 - 1) = true then p.fast32Max else p.sizeMax) := by
    by_cases hsm : n ≤ 2 ^ 32 - 1
    · simp only [hsm, decide_true, if_true]; omega
    · simp only [hsm, decide_false, Bool.false_eq_true, if_false]; omega
  have hsto : N ≤ (if decide (n ≤ 2 ^ 32 - 1) = true then 2 ^ 32 - 1 else p.sizeMax) := by
    by_cases hsm : n ≤ 2 ^ 32 - 1
    · simp only [hsm, decide_true, if_true]; omega
    · simp only [hsm, decide_false, Bool.false_eq_true, if_false]; omega
  have ha := hby a
  have hb := hby b
  refine ⟨⟨hl, hnl, hidx, hsto, hr, hrl, hwf _, hwf _, by simp only; omega, by simp only; omega, hr1, hk.2, by simp only; omega, hp.int_long⟩,
    ⟨hP, hPc.trans hnl, hPc.trans hidx, hPc.trans hsto, hr, hrl, hwf _, hwf _, by simp only; omega, by simp only; omega, hr1, hk.2,
      by simp only; omega, hp.int_long⟩, fun _ => ⟨by simp only; omega, ?_, ?_⟩, ?_⟩
  all_goals simp only
  · intro m _ hm
    have : 2 * k * (m + 1) ≤ 16 * (m + 1) := Nat.mul_le_mul_right _ (by omega)
    omega
  · intro m _ hm
    have h3 : 2 * k * (m - 1) ≤ 16 * (m - 1) := Nat.mul_le_mul_right _ (by omega)
    have h4 : 2 * k * (m * 3 / 2) ≤ 16 * (m * 3 / 2) := Nat.mul_le_mul_right _ (by omega)
    omega
  · intro m _ hm
    have : (m + 1) * p.szRes ≤ (m + 1) * 8 := Nat.mul_le_mul_left _ hr2
    omega

/-- **C96** (fails) On a 32 bit host a limit of, say, 4294967296 pixels is accepted, but is no pixels at all as `size_t`: no analysis
can be made of an image of any size. -/
theorem C96_narrow_fails {a b : Prec} {n : UInt64} {r : ℕ} (hp : Narrow p) (ha : Asks .f o.coeff a) (hb : Asks .d o.inter b)
    (hn : o.pixelMax = some (.number n)) (h0 : 0 < n.toNat) (h32 : n.toNat % 2 ^ 32 = 0) (hr : Limit 12 o.defaultRange r) :
    ∃ c, configured p o = some c ∧ ∀ (e : Env) m W H q w x w', createAnalysis ⟨c, e⟩ m W H q w = some (x, w') → x.1 = none := by
  obtain ⟨hc, ht⟩ := coeffPrec_asks (p := p) ha
  have hr' : rangeDefault p o = r ∧ 0 < r := by
    obtain ⟨oc, oi, op, od, of⟩ := o
    cases hr with
    | unset => exact ⟨rfl, by norm_num⟩
    | number h => exact ⟨rfl, h⟩
  have hn' : pixelLimit p o = n.toNat := by simp [pixelLimit, hn, Token.value]
  obtain ⟨c, hcf, _, _, h3, _⟩ := configured_of hc (interPrec_asks ha hb) (fun _ => ht.symm) hn' h0 hr'.1 hr'.2
  refine ⟨c, hcf, fun e m W H q w x w' h => ?_⟩
  have hs := hp.size
  have hz : c.pixelMax = 0 := by
    rw [h3, hs]
    omega
  have hd : ∀ k l, dimsExceedLimit c W H k l = true := by
    intro k l
    simp [dimsExceedLimit, hz]
  unfold createAnalysis at h
  simp only [hd, if_true] at h
  rw [M.bind_eq_some] at h
  obtain ⟨y, w1, _, h⟩ := h
  cases y with
  | none =>
    simp only [createFail, M.bind_eq_some] at h
    obtain ⟨_, _, _, h⟩ := h
    cases h
    rfl
  | some b =>
    simp only [M.bind_eq_some] at h
    obtain ⟨_, _, _, h⟩ := h
    split_ifs at h
    all_goals
      simp only [createFail, M.bind_eq_some] at h
      obtain ⟨_, _, _, h⟩ := h
      cases h
      rfl

/-- WebAssembly; `long double` is binary128. -/
def wasmHost : Platform where
  sizeMax := 2 ^ 32 - 1
  intMax := 2 ^ 31 - 1
  longMax := 2 ^ 31 - 1
  fast32Max := 2 ^ 32 - 1
  long := ⟨113, -16494, 16384⟩
  szLong := 16
  szPtr := 4
  szRes := 8
  littleEndian := true
  charSigned := true
  macros := fun s => if s = "SIZE_MAX" then some (2 ^ 32 - 1) else none
  fftw := fun a => decide (a = .f)

theorem wasmHost_narrow : Narrow wasmHost where
  size := rfl
  int := rfl
  int_long := by simp [wasmHost]
  fast32 := by simp [wasmHost]
  long_wf := by constructor <;> simp [wasmHost]
  long_size := by simp [wasmHost]
  ptr := by simp [wasmHost]
  res := by simp [wasmHost]
  size_macro := rfl

/-- The default build for WebAssembly. -/
example : (ilp32 .fftw).WF ∧ Build (relimit ⟨ilp32 .fftw, Demo.env⟩ 100000000 (2 ^ 32 - 1) (2 ^ 32 - 1)) :=
  C96_narrow_partial (c := ilp32 .fftw) (o := ⟨none, none, none, none, true⟩) wasmHost_narrow rfl (by simp [ilp32]) (by simp [ilp32]) Demo.env (by norm_num)
    (by simp [ilp32]) le_rfl

example : ∃ c, configured wasmHost ⟨none, none, some (.number 4294967296), none, false⟩ = some c ∧
    ∀ (e : Env) m W H q w x w', createAnalysis ⟨c, e⟩ m W H q w = some (x, w') → x.1 = none :=
  C96_narrow_fails (o := ⟨none, none, some (.number 4294967296), none, false⟩) wasmHost_narrow .unset .unset rfl (by decide) (by decide) .unset

/-- x86-64 with GNU/Linux and FFTW for `float`. -/
def linux : Platform where
  sizeMax := 2 ^ 64 - 1
  intMax := 2 ^ 31 - 1
  longMax := 2 ^ 63 - 1
  fast32Max := 2 ^ 64 - 1
  long := x87
  szLong := 16
  szPtr := 8
  szRes := 16
  littleEndian := true
  charSigned := true
  macros := fun s => if s = "SIZE_MAX" then some (2 ^ 64 - 1) else if s = "INT_MAX" then some (2 ^ 31 - 1) else none
  fftw := fun a => decide (a = .f)

theorem linux_wide : Wide linux where
  size := rfl
  int := rfl
  int_long := by simp [linux]
  fast32 := by simp [linux]
  long_wf := by constructor <;> simp [linux, x87]
  long_p := by simp [linux, x87]
  long_room := by simp [linux, x87]
  long_size := by simp [linux]
  ptr := by simp [linux]
  res := by simp [linux]
  size_macro := rfl
  macros_le := by
    intro s n h
    simp only [linux] at h
    split at h
    · cases h; norm_num
    · split at h <;> cases h
      norm_num

/-- **C96** Without options the library is the one the other examples are about. -/
theorem C96_default : configured linux ⟨none, none, none, none, true⟩ = some (lp64 .fftw) ∧
    configured linux ⟨none, none, none, none, false⟩ = some (lp64 .kiss) := ⟨rfl, rfl⟩

/-- `--coeff-precision=D --pixel-max=1000000 --default-range=5`: KISS FFT, since FFTW for `double` is missing. -/
example : ∃ c, configured linux ⟨some (.name "D"), none, some (.number 1000000), some (.number 5), true⟩ = some c ∧
    c.coeff = binary64 ∧ c.inter = binary64 ∧ c.pixelMax = 1000000 ∧ c.defaultRange = 5 ∧ c.backend = .kiss ∧ c.kiss = binary64 :=
  C96_asked (o := ⟨some (.name "D"), none, some (.number 1000000), some (.number 5), true⟩) (a := .d) (b := .d) (n := 1000000) (r := 5)
    linux_wide .d .unset (.number (n := 1000000) (by decide)) (.number (n := 5) (by decide))

/-- The same for `long double` and two thousand million pixels. -/
example {c : Cfg} (h : configured linux ⟨some (.name "L"), none, some (.number 2000000000), none, true⟩ = some c) :
    c.szCoeff = 16 ∧ c.szInter = 16 ∧ c.szKiss = 8 ∧ c.storMax = 2 ^ 32 - 1 :=
  have t := C96_types (o := ⟨some (.name "L"), none, some (.number 2000000000), none, true⟩) (a := .l) (b := .d) linux_wide .l .unset
    (.number (n := 2000000000) (by decide)) .unset h
  ⟨t.1, t.2.1, t.2.2.1, (t.2.2.2.2.2.2.1 (by decide)).1⟩

/-- `--inter-precision=double` -/
example : ∃ c, configured linux ⟨none, some (.name "double"), none, none, true⟩ = some c ∧ c.coeff = binary32 ∧ c.inter = binary32 ∧
    (Precise c ↔ Prec.f ≠ .f) :=
  C96_unknown_inter_fails (o := ⟨none, some (.name "double"), none, none, true⟩) (a := .f) (s := "double") linux_wide .unset ⟨by decide, by decide, by decide, rfl⟩ rfl .unset .unset

/-- `--coeff-precision=double` -/
example : configured linux ⟨some (.name "double"), none, none, none, true⟩ = none :=
  C96_refuses (s := "double") (.inl ⟨⟨by decide, by decide, by decide, rfl⟩, rfl⟩)

/-- `--coeff-precision=2` without and with FFTW. -/
example : configured linux ⟨some (.number 2), none, none, none, true⟩ = none ∧
    ∃ c, configured linux ⟨some (.number 2), none, none, none, false⟩ = some c ∧ c.backend = .kiss ∧ c.coeff = binary64 ∧
      c.kiss = binary32 :=
  ⟨(C96_number_fails linux_wide rfl rfl .unset .unset).1 ⟨rfl, rfl⟩,
    (C96_number_fails linux_wide rfl rfl .unset .unset).2 (by simp)⟩

/-- `--pixel-max=INT_MAX`: a macro. -/
example : ∃ c, configured linux ⟨none, none, some (.name "INT_MAX"), none, false⟩ = some c ∧ ∀ e, Build ⟨c, e⟩ :=
  ⟨_, rfl, fun e => C96_build linux_wide (o := ⟨none, none, some (.name "INT_MAX"), none, false⟩) rfl e⟩

end Verif.Props
