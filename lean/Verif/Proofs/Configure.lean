import Verif.Spec.Configure

/-! # Lemmas about the options of a build -/

namespace Verif

open Spec

variable {p : Platform} {o : Options} {c : Cfg}

/-- The parts of a build. -/
theorem configured_some (h : configured p o = some c) : ∃ a b, coeffPrec p o = some a ∧ interPrec p o = some b ∧
    (usesFftw p o = true → a = textPrec o) ∧ 0 < pixelLimit p o ∧ 0 < rangeDefault p o ∧ c = buildCfg p o a b := by
  unfold configured at h
  split at h
  · rename_i a b ha hb
    split_ifs at h with h1 h2 h3
    refine ⟨a, b, ha, hb, fun hf => ?_, Nat.pos_of_ne_zero h1, Nat.pos_of_ne_zero h2, (Option.some.inj h).symm⟩
    by_contra hne
    exact h3 ⟨hf, hne⟩
  · cases h

/-- The number of a precision. -/
def Prec.code : Prec → ℕ
  | .f => 1
  | .d => 2
  | .l => 3

theorem precOf_pos {n : ℕ} {a : Prec} (h : precOf n = some a) : n = a.code := by
  unfold precOf at h
  split at h <;> cases h <;> rfl

theorem interPrec_code {a b : Prec} (ha : coeffPrec p o = some a) (hb : interPrec p o = some b) : a.code ≤ b.code := by
  unfold coeffPrec at ha
  unfold interPrec at hb
  have h1 := precOf_pos ha
  simp only at hb
  split_ifs at hb with h
  · exact le_of_eq (h1.symm.trans (precOf_pos hb))
  · have := precOf_pos hb
    omega

/-- A token stands for a number that fits `uintmax_t`. -/
theorem Token.value_le (hp : Wide p) (t : Token) : t.value p.macros ≤ 2 ^ 64 - 1 := by
  cases t with
  | name s =>
    simp only [Token.value]
    cases h : p.macros s with
    | none => simp
    | some n => exact hp.macros_le s n h
  | number n =>
    have := n.toNat_lt
    simp only [Token.value]
    omega

theorem fmt_formatOf (a : Prec) : p.fmt a = formatOf p a := by cases a <;> rfl

theorem coeffPrec_asks {a : Prec} (h : Asks .f o.coeff a) : coeffPrec p o = some a ∧ textPrec o = a := by
  obtain ⟨oc, oi, op, od, of⟩ := o
  cases h <;> simp [coeffPrec, textPrec, Token.value, precMacros, precOf]

theorem interPrec_asks {a b : Prec} (h : Asks .f o.coeff a) (h' : Asks .d o.inter b) :
    interPrec p o = some (finer a b) := by
  obtain ⟨oc, oi, op, od, of⟩ := o
  cases h <;> cases h' <;> simp [interPrec, Token.value, precMacros, precOf, finer]

theorem interPrec_unknown {a : Prec} {s : String} (h : Asks .f o.coeff a) (h' : Unknown p s) (hi : o.inter = some (.name s)) :
    interPrec p o = some a := by
  obtain ⟨oc, oi, op, od, of⟩ := o
  obtain ⟨h1, h2, h3, h4⟩ := h'
  cases hi
  cases h <;> simp [interPrec, Token.value, precMacros, precOf, h1, h2, h3, h4]

theorem pixels_limit {n : ℕ} (hp : Wide p) (h : Limit p.sizeMax o.pixelMax n) :
    pixelLimit p o = n ∧ 0 < n ∧ n ≤ p.sizeMax := by
  have hs := hp.size
  obtain ⟨oc, oi, op, od, of⟩ := o
  cases h with
  | unset => simp [pixelLimit, Token.value, hp.size_macro, hs]
  | @number n hn =>
    have := n.toNat_lt
    refine ⟨rfl, hn, by omega⟩

theorem range_limit {r : ℕ} (hp : Wide p) (h : Limit 12 o.defaultRange r) :
    rangeDefault p o = r ∧ 0 < r ∧ r ≤ p.sizeMax := by
  have hs := hp.size
  obtain ⟨oc, oi, op, od, of⟩ := o
  cases h with
  | unset => exact ⟨rfl, by norm_num, by omega⟩
  | @number n hn =>
    have := n.toNat_lt
    refine ⟨rfl, hn, by omega⟩

/-- When the library builds. -/
theorem configured_of {a b : Prec} {n r : ℕ} (ha : coeffPrec p o = some a) (hb : interPrec p o = some b)
    (ht : usesFftw p o = true → a = textPrec o)
    (hn : pixelLimit p o = n) (h1 : 0 < n)
    (hr : rangeDefault p o = r) (h2 : 0 < r) :
    ∃ c, configured p o = some c ∧ c.coeff = p.fmt a ∧ c.inter = p.fmt b ∧ c.pixelMax = n % (p.sizeMax + 1) ∧
      c.defaultRange = r % (p.sizeMax + 1) ∧ c.backend = (if usesFftw p o then .fftw else .kiss) ∧
      c.kiss = (if textPrec o = .f then binary32 else binary64) := by
  refine ⟨buildCfg p o a b, ?_, rfl, rfl, by rw [← hn]; rfl, by rw [← hr]; rfl, rfl, rfl⟩
  unfold configured
  simp only [ha, hb]
  rw [if_neg (by omega), if_neg (by omega), if_neg (fun h => h.2 (ht h.1))]

end Verif
