import Verif.Proofs.PfmFormat
import Verif.Spec.FloatText

/-! # What `%f` reads -/

namespace Verif

open Spec Stream

/-! ## Characters -/

theorem byte_all {P : UInt8 → Prop} (h : ∀ n : Fin 256, P (UInt8.ofNat n.val)) (b : UInt8) : P b := by
  have := h ⟨b.toNat, b.toNat_lt⟩
  simpa using this

theorem isdigit_digits (b : UInt8) : isdigit b = true ↔ Digits [b] := by
  simp only [Digits, List.mem_singleton, forall_eq]
  revert b; exact byte_all (by decide +kernel)

/-- The value of one hexadecimal digit. -/
def nibble (b : UInt8) : ℕ := if b.toNat ≤ 57 then b.toNat - 48 else if b.toNat ≤ 70 then b.toNat - 55 else b.toNat - 87

theorem hexDigit_some {b : UInt8} (h : HexDigits [b]) : hexDigit b = some (nibble b) := by
  simp only [HexDigits, List.mem_singleton, forall_eq] at h
  revert h; revert b; exact fun {b} => byte_all (P := fun b => 48 ≤ b.toNat ∧ b.toNat ≤ 57 ∨ 65 ≤ b.toNat ∧ b.toNat ≤ 70 ∨
    97 ≤ b.toNat ∧ b.toNat ≤ 102 → hexDigit b = some (nibble b)) (by decide +kernel) b

theorem hexDigit_inv {b : UInt8} {d : ℕ} (h : hexDigit b = some d) : HexDigits [b] ∧ d = nibble b := by
  have : HexDigits [b] := by
    have hs : (hexDigit b).isSome = true := by rw [h]; rfl
    simp only [HexDigits, List.mem_singleton, forall_eq]
    clear h
    revert hs; revert b
    exact fun {b} => byte_all (P := fun b => (hexDigit b).isSome = true → 48 ≤ b.toNat ∧ b.toNat ≤ 57 ∨ 65 ≤ b.toNat ∧ b.toNat ≤ 70 ∨
      97 ≤ b.toNat ∧ b.toNat ≤ 102) (by decide +kernel) b
  rw [hexDigit_some this] at h
  exact ⟨this, (Option.some.inj h).symm⟩

theorem anyCase_one {c : Char} {b : UInt8} : AnyCase (String.singleton c) [b] ↔ tolower b = ch c := by
  simp [AnyCase, cs]

theorem nanBody_one (b : UInt8) : NanBody [b] ↔ (isdigit b || b = ch '_' || (ch 'a' ≤ tolower b && tolower b ≤ ch 'z')) = true := by
  simp only [NanBody, List.mem_singleton, forall_eq]
  revert b; exact byte_all (by decide +kernel)

theorem digits_snoc {l : List UInt8} {b : UInt8} (h : Digits l) (hb : isdigit b = true) : Digits (l ++ [b]) := by
  intro x hx
  rcases List.mem_append.mp hx with hx | hx
  · exact h x hx
  · exact (isdigit_digits b).mp hb x hx

theorem hexDigits_snoc {l : List UInt8} {b : UInt8} (h : HexDigits l) (hb : HexDigits [b]) : HexDigits (l ++ [b]) := by
  intro x hx
  rcases List.mem_append.mp hx with hx | hx
  · exact h x hx
  · exact hb x hx

theorem value_snoc (l : List UInt8) (b : UInt8) : value (l ++ [b]) = 10 * value l + (b.toNat - 48) := by
  rw [value_append]; simp [value]; ring

theorem hexValue_snoc (l : List UInt8) (b : UInt8) : hexValue (l ++ [b]) = 16 * hexValue l + nibble b := by
  simp [hexValue, Nat.ofDigits_cons, nibble]; ring

theorem scale_eq (m base : ℕ) (z : ℤ) : Stream.scale m base z = m * (base : ℚ) ^ z := by
  unfold Stream.scale
  split
  · rename_i h
    obtain ⟨n, rfl⟩ := Int.eq_ofNat_of_zero_le h
    simp
  · rename_i h
    obtain ⟨n, hn⟩ := Int.eq_ofNat_of_zero_le (show 0 ≤ -z by omega)
    rw [hn, Rat.mkRat_eq_div]
    obtain rfl : z = -(n : ℤ) := by omega
    simp [div_eq_mul_inv]

theorem floatStep_space {st : Stream.FloatState} {a : Stream.FloatAcc} {b : UInt8} (h : isspace b = true) : Stream.floatStep st a b = none := by
  have hb : b = 32 ∨ b = 9 ∨ b = 10 ∨ b = 11 ∨ b = 12 ∨ b = 13 := by
    have := (isspace_iff b).mp h
    simp only [← UInt8.toNat_inj]
    change b.toNat = 32 ∨ b.toNat = 9 ∨ b.toNat = 10 ∨ b.toNat = 11 ∨ b.toNat = 12 ∨ b.toNat = 13
    omega
  have hl : tolower b = b := by rcases hb with rfl | rfl | rfl | rfl | rfl | rfl <;> rfl
  cases st with
  | inf k =>
    simp only [Stream.floatStep, hl]
    rw [if_neg]
    intro hk
    have := List.mem_of_getElem? hk
    revert this
    rcases hb with rfl | rfl | rfl | rfl | rfl | rfl <;> decide
  | nan k =>
    simp only [Stream.floatStep, hl]
    split
    · rw [if_neg]
      rcases hb with rfl | rfl | rfl | rfl | rfl | rfl <;> decide
    · rw [if_neg]
      intro hk
      have := List.mem_of_getElem? hk
      revert this
      rcases hb with rfl | rfl | rfl | rfl | rfl | rfl <;> decide
  | _ => rcases hb with rfl | rfl | rfl | rfl | rfl | rfl <;> rfl

/-! ## Texts on the way -/

/-- A number without sign and power, as far as it has been read. -/
inductive Mantissa : Bool → ℕ → ℕ → List UInt8 → Prop where
  | dec {ds fs text : List UInt8} : Digits ds → Digits fs → Pointed ds fs text → Mantissa false (value (ds ++ fs)) fs.length text
  | hex {x : UInt8} {ds fs text : List UInt8} : tolower x = ch 'x' → HexDigits ds → HexDigits fs → Pointed ds fs text →
    Mantissa true (hexValue (ds ++ fs)) fs.length (ch '0' :: x :: text)

/-- The letter for a power. -/
def powerLetter (hex : Bool) : Char := if hex then 'p' else 'e'

/-- What has been read in a state, after the sign. -/
def Read (neg : Bool) (st : FloatState) (a : FloatAcc) (l : List UInt8) : Prop :=
  match st with
  | .start => l = [] ∧ neg = false ∧ a = ⟨neg, 0, 0, false, 0, false⟩
  | .sign => l = [] ∧ a = ⟨neg, 0, 0, false, 0, false⟩
  | .zero => l = [ch '0'] ∧ a = ⟨neg, 0, 0, false, 0, false⟩
  | .int => Digits l ∧ l ≠ [] ∧ a = ⟨neg, value l, 0, false, 0, false⟩
  | .point => l = [ch '.'] ∧ a = ⟨neg, 0, 0, false, 0, false⟩
  | .frac => ∃ ds fs, Digits ds ∧ Digits fs ∧ ds ++ fs ≠ [] ∧ l = ds ++ ch '.' :: fs ∧ a = ⟨neg, value (ds ++ fs), fs.length, false, 0, false⟩
  | .e => ∃ hex m f t b, Mantissa hex m f t ∧ tolower b = ch (powerLetter hex) ∧ l = t ++ [b] ∧ a = ⟨neg, m, f, false, 0, hex⟩
  | .esign => ∃ hex m f t b en es, Mantissa hex m f t ∧ tolower b = ch (powerLetter hex) ∧ FloatSign en es ∧ l = t ++ b :: es ∧ a = ⟨neg, m, f, en, 0, hex⟩
  | .exp => ∃ hex m f t b en es ds, Mantissa hex m f t ∧ tolower b = ch (powerLetter hex) ∧ FloatSign en es ∧ Digits ds ∧ ds ≠ [] ∧ l = t ++ b :: (es ++ ds) ∧
      a = ⟨neg, m, f, en, value ds, hex⟩
  | .hex => ∃ x, tolower x = ch 'x' ∧ l = [ch '0', x] ∧ a = ⟨neg, 0, 0, false, 0, true⟩
  | .hint => ∃ x ds, tolower x = ch 'x' ∧ HexDigits ds ∧ ds ≠ [] ∧ l = ch '0' :: x :: ds ∧ a = ⟨neg, hexValue ds, 0, false, 0, true⟩
  | .hpoint => ∃ x, tolower x = ch 'x' ∧ l = [ch '0', x, ch '.'] ∧ a = ⟨neg, 0, 0, false, 0, true⟩
  | .hfrac => ∃ x ds fs, tolower x = ch 'x' ∧ HexDigits ds ∧ HexDigits fs ∧ ds ++ fs ≠ [] ∧ l = ch '0' :: x :: (ds ++ ch '.' :: fs) ∧
      a = ⟨neg, hexValue (ds ++ fs), fs.length, false, 0, true⟩
  | .inf k => l.map tolower = (cs "infinity").take k ∧ k ≤ 8 ∧ a = ⟨neg, 0, 0, false, 0, false⟩
  | .nan k => l.map tolower = (cs "nan").take k ∧ k ≤ 3 ∧ a = ⟨neg, 0, 0, false, 0, false⟩
  | .nanOpen => ∃ t body, t.map tolower = cs "nan" ∧ NanBody body ∧ l = t ++ ch '(' :: body ∧ a = ⟨neg, 0, 0, false, 0, false⟩
  | .nanDone => ∃ t body, t.map tolower = cs "nan" ∧ NanBody body ∧ l = t ++ ch '(' :: (body ++ [ch ')']) ∧ a = ⟨neg, 0, 0, false, 0, false⟩

/-- What has been read in a state. -/
def ReadAll (st : FloatState) (a : FloatAcc) (l : List UInt8) : Prop := ∃ neg sg t, FloatSign neg sg ∧ (st = .start → sg = []) ∧ l = sg ++ t ∧ Read neg st a t

theorem firstChar_read {neg : Bool} {b : UInt8} {st : FloatState} {a : FloatAcc}
    (h : (if b = ch '0' then some (FloatState.zero, (⟨neg, 0, 0, false, 0, false⟩ : FloatAcc))
      else if isdigit b then some (.int, ⟨neg, 10 * 0 + (b.toNat - 48), 0, false, 0, false⟩)
      else if b = ch '.' then some (.point, ⟨neg, 0, 0, false, 0, false⟩)
      else if tolower b = ch 'i' then some (.inf 1, ⟨neg, 0, 0, false, 0, false⟩)
      else if tolower b = ch 'n' then some (.nan 1, ⟨neg, 0, 0, false, 0, false⟩)
      else none) = some (st, a)) : Read neg st a [b] := by
  split_ifs at h with h1 h2 h3 h4 h5 <;> cases h
  · exact ⟨by rw [h1], rfl⟩
  · exact ⟨(isdigit_digits b).mp h2, by simp, by simp [value]⟩
  · exact ⟨by rw [h3], rfl⟩
  · exact ⟨by simp [h4]; decide, by decide, rfl⟩
  · exact ⟨by simp [h5]; decide, by decide, rfl⟩

theorem snoc_take {w : List UInt8} {t : List UInt8} {b : UInt8} {k : ℕ} (h : t.map tolower = w.take k) (hb : w[k]? = some (tolower b)) :
    (t ++ [b]).map tolower = w.take (k + 1) := by
  rw [List.take_add_one, hb, List.map_append, h]; rfl

theorem Read.step {neg : Bool} {st st' : FloatState} {a a' : FloatAcc} {b : UInt8} {t : List UInt8} (hs : st ≠ .start) (hr : Read neg st a t)
    (h : floatStep st a b = some (st', a')) : Read neg st' a' (t ++ [b]) := by
  cases st with
  | start => exact absurd rfl hs
  | sign =>
    obtain ⟨rfl, rfl⟩ := hr
    exact firstChar_read h
  | zero =>
    obtain ⟨rfl, rfl⟩ := hr
    simp only [floatStep] at h
    split_ifs at h with h1 h2 h3 h4 <;> cases h
    · refine ⟨digits_snoc (l := [ch '0']) (by unfold Digits; decide) h1, by simp, ?_⟩
      rw [value_snoc]; simp [show value [ch '0'] = 0 by decide]
    · exact ⟨[ch '0'], [], by unfold Digits; decide, by simp [Digits], by simp, by rw [h2], rfl⟩
    · exact ⟨false, _, _, [ch '0'], b, .dec (ds := [ch '0']) (fs := []) (by unfold Digits; decide) (by simp [Digits]) (.whole (by simp)), h3, rfl,
        by simp [show value [ch '0'] = 0 by decide]⟩
    · exact ⟨b, h4, rfl, rfl⟩
  | int =>
    obtain ⟨h1, h2, rfl⟩ := hr
    simp only [floatStep] at h
    split_ifs at h with h3 h4 h5 <;> cases h
    · exact ⟨digits_snoc h1 h3, by simp, by rw [value_snoc]⟩
    · exact ⟨t, [], h1, by simp [Digits], by simpa using h2, by rw [h4], by simp⟩
    · exact ⟨false, _, _, t, b, .dec (fs := []) h1 (by simp [Digits]) (.whole h2), h5, rfl, by simp⟩
  | point =>
    obtain ⟨rfl, rfl⟩ := hr
    simp only [floatStep] at h
    split_ifs at h with h1 <;> cases h
    exact ⟨[], [b], by simp [Digits], (isdigit_digits b).mp h1, by simp, rfl, by simp [value]⟩
  | frac =>
    obtain ⟨ds, fs, h1, h2, h3, rfl, rfl⟩ := hr
    simp only [floatStep] at h
    split_ifs at h with h4 h5 <;> cases h
    · exact ⟨ds, fs ++ [b], h1, digits_snoc h2 h4, by simp, by simp, by rw [← List.append_assoc, value_snoc]; simp⟩
    · exact ⟨false, _, _, _, b, .dec h1 h2 (.point h3), h5, rfl, rfl⟩
  | e =>
    obtain ⟨hex, m, f, t, c, h1, h2, rfl, rfl⟩ := hr
    simp only [floatStep] at h
    split_ifs at h with h4 h5 h6 <;> cases h
    · exact ⟨hex, m, f, t, c, _, _, h1, h2, .minus, by simp [h4], rfl⟩
    · exact ⟨hex, m, f, t, c, _, _, h1, h2, .plus, by simp [h5], rfl⟩
    · exact ⟨hex, m, f, t, c, _, _, [b], h1, h2, .none, (isdigit_digits b).mp h6, by simp, by simp, by simp [value]⟩
  | esign =>
    obtain ⟨hex, m, f, t, c, en, es, h1, h2, h3, rfl, rfl⟩ := hr
    simp only [floatStep] at h
    split_ifs at h with h4 <;> cases h
    exact ⟨hex, m, f, t, c, _, _, [b], h1, h2, h3, (isdigit_digits b).mp h4, by simp, by simp, by simp [value]⟩
  | exp =>
    obtain ⟨hex, m, f, t, c, en, es, ds, h1, h2, h3, h4, h5, rfl, rfl⟩ := hr
    simp only [floatStep] at h
    split_ifs at h with h6 <;> cases h
    exact ⟨hex, m, f, t, c, _, _, ds ++ [b], h1, h2, h3, digits_snoc h4 h6, by simp, by simp, by rw [value_snoc]⟩
  | hex =>
    obtain ⟨x, hx, rfl, rfl⟩ := hr
    simp only [floatStep] at h
    cases hd : hexDigit b with
    | some d =>
      rw [hd] at h; cases h
      obtain ⟨h1, rfl⟩ := hexDigit_inv hd
      exact ⟨x, [b], hx, h1, by simp, rfl, by simp [hexValue, nibble]⟩
    | none =>
      rw [hd] at h
      simp only at h
      split_ifs at h with h1 <;> cases h
      exact ⟨x, hx, by simp [h1], rfl⟩
  | hint =>
    obtain ⟨x, ds, hx, h1, h2, rfl, rfl⟩ := hr
    simp only [floatStep] at h
    cases hd : hexDigit b with
    | some d =>
      rw [hd] at h; cases h
      obtain ⟨h3, rfl⟩ := hexDigit_inv hd
      exact ⟨x, ds ++ [b], hx, hexDigits_snoc h1 h3, by simp, by simp, by rw [hexValue_snoc]⟩
    | none =>
      rw [hd] at h
      simp only at h
      split_ifs at h with h3 h4 <;> cases h
      · exact ⟨x, ds, [], hx, h1, by simp [HexDigits], by simpa using h2, by simp [h3], by simp⟩
      · exact ⟨true, _, _, _, b, .hex (fs := []) hx h1 (by simp [HexDigits]) (.whole h2), h4, rfl, by simp⟩
  | hpoint =>
    obtain ⟨x, hx, rfl, rfl⟩ := hr
    simp only [floatStep] at h
    cases hd : hexDigit b with
    | some d =>
      rw [hd] at h; cases h
      obtain ⟨h1, rfl⟩ := hexDigit_inv hd
      exact ⟨x, [], [b], hx, by simp [HexDigits], h1, by simp, rfl, by simp [hexValue, nibble]⟩
    | none => rw [hd] at h; cases h
  | hfrac =>
    obtain ⟨x, ds, fs, hx, h1, h2, h3, rfl, rfl⟩ := hr
    simp only [floatStep] at h
    cases hd : hexDigit b with
    | some d =>
      rw [hd] at h; cases h
      obtain ⟨h4, rfl⟩ := hexDigit_inv hd
      exact ⟨x, ds, fs ++ [b], hx, h1, hexDigits_snoc h2 h4, by simp, by simp, by rw [← List.append_assoc, hexValue_snoc]; simp⟩
    | none =>
      rw [hd] at h
      simp only at h
      split_ifs at h with h4 <;> cases h
      exact ⟨true, _, _, _, b, .hex hx h1 h2 (.point h3), h4, rfl, rfl⟩
  | inf k =>
    obtain ⟨h1, h2, rfl⟩ := hr
    simp only [floatStep] at h
    split_ifs at h with h3 <;> cases h
    have : k < (cs "infinity").length := (List.getElem?_eq_some_iff.mp h3).1
    exact ⟨snoc_take h1 h3, this, rfl⟩
  | nan k =>
    obtain ⟨h1, h2, rfl⟩ := hr
    simp only [floatStep] at h
    split_ifs at h with h3 h4 h4 <;> cases h
    · subst h3
      exact ⟨t, [], h1, by simp [NanBody], by rw [h4], rfl⟩
    · have : k < (cs "nan").length := (List.getElem?_eq_some_iff.mp h4).1
      exact ⟨snoc_take h1 h4, this, rfl⟩
  | nanOpen =>
    obtain ⟨t, body, h1, h2, rfl, rfl⟩ := hr
    simp only [floatStep] at h
    split_ifs at h with h3 h4 <;> cases h
    · exact ⟨t, body, h1, h2, by simp [h3], rfl⟩
    · refine ⟨t, body ++ [b], h1, ?_, by simp, rfl⟩
      intro x hx
      rcases List.mem_append.mp hx with hx | hx
      · exact h2 x hx
      · exact (nanBody_one b).mpr h4 x hx
  | nanDone => cases h

theorem ReadAll.step {st st' : FloatState} {a a' : FloatAcc} {b : UInt8} {l : List UInt8} (hr : ReadAll st a l)
    (h : floatStep st a b = some (st', a')) : ReadAll st' a' (l ++ [b]) := by
  obtain ⟨neg, sg, t, h1, h0, rfl, h2⟩ := hr
  by_cases hs : st = .start
  · subst hs
    obtain ⟨rfl, rfl, rfl⟩ := h2
    obtain rfl := h0 rfl
    by_cases h3 : b = ch '-'
    · subst h3
      cases h
      exact ⟨true, [ch '-'], [], .minus, by simp, by simp, rfl, rfl⟩
    by_cases h4 : b = ch '+'
    · subst h4
      cases h
      exact ⟨false, [ch '+'], [], .plus, by simp, by simp, rfl, rfl⟩
    simp only [floatStep] at h
    rw [if_neg h3, if_neg h4] at h
    exact ⟨false, [], [b], .none, fun _ => rfl, rfl, firstChar_read h⟩
  · have := Read.step hs h2 h
    refine ⟨neg, sg, t ++ [b], h1, ?_, by simp, this⟩
    rintro rfl
    obtain ⟨h3, _⟩ := this
    simp at h3

theorem ReadAll.run {l : List UInt8} : ∀ {st : FloatState} {a : FloatAcc} {n : ℕ} {pre : List UInt8}, ReadAll st a pre →
    ∃ j, (floatRun l st a n).2.2 = n + j ∧ j ≤ l.length ∧ ReadAll (floatRun l st a n).1 (floatRun l st a n).2.1 (pre ++ l.take j) := by
  induction l with
  | nil => intro st a n pre h; exact ⟨0, rfl, le_rfl, by simpa [floatRun] using h⟩
  | cons b l ih =>
    intro st a n pre h
    unfold floatRun
    cases hs : floatStep st a b with
    | none => exact ⟨0, rfl, by simp, by simpa using h⟩
    | some x =>
      obtain ⟨st', a'⟩ := x
      obtain ⟨j, h1, h2, h3⟩ := ih (n := n + 1) (h.step hs)
      refine ⟨j + 1, by simp only [h1]; omega, by simpa using h2, ?_⟩
      simpa using h3

/-- What has been read in the final state of a number. -/
theorem ReadAll.number {st : FloatState} {a : FloatAcc} {l : List UInt8} (h : ReadAll st a l) (hf : st.finite = true) :
    ∃ neg sg t q, FloatSign neg sg ∧ l = sg ++ t ∧ Magnitude q t ∧ floatValue st a = some (binary32.deliver neg (if neg then -q else q)) := by
  obtain ⟨neg, sg, t, h1, _, rfl, h2⟩ := h
  refine ⟨neg, sg, t, ?_⟩
  simp only [h1, true_and]
  cases st with
  | start | sign | point | e | esign | hex | hpoint | nanOpen | inf | nan | nanDone => cases hf
  | zero =>
    obtain ⟨rfl, rfl⟩ := h2
    refine ⟨_, .decimal (ds := [ch '0']) (fs := []) (power := []) (by unfold Digits; decide) (by simp [Digits]) (.whole (by simp)) .none, ?_⟩
    simp [floatValue, scale_eq, show value [ch '0'] = 0 by decide]
  | int =>
    obtain ⟨h3, h4, rfl⟩ := h2
    have := Magnitude.decimal (ds := t) (fs := []) (power := []) h3 (by simp [Digits]) (.whole h4) .none
    rw [List.append_nil] at this
    exact ⟨_, this, by simp [floatValue, scale_eq]⟩
  | frac =>
    obtain ⟨ds, fs, h3, h4, h5, rfl, rfl⟩ := h2
    have := Magnitude.decimal (power := []) h3 h4 (.point h5) .none
    rw [List.append_nil] at this
    exact ⟨_, this, by simp [floatValue, scale_eq]⟩
  | exp =>
    obtain ⟨hex, m, f, t', b, en, es, ds, h3, h4, h5, h6, h7, rfl, rfl⟩ := h2
    cases h3 with
    | dec a1 a2 a3 =>
      exact ⟨_, .decimal a1 a2 a3 (.some (letter := "e") (anyCase_one.mpr h4) h5 ⟨h7, h6, rfl⟩), by simp [floatValue, scale_eq]⟩
    | @hex x ds' fs' text a0 a1 a2 a3 =>
      exact ⟨_, .hex (anyCase_one (c := 'x').mpr a0) a1 a2 a3 (.some (letter := "p") (anyCase_one.mpr h4) h5 ⟨h7, h6, rfl⟩),
        by simp [floatValue, scale_eq]⟩
  | hint =>
    obtain ⟨x, ds, h0, h3, h4, rfl, rfl⟩ := h2
    have := Magnitude.hex (fs := []) (power := []) (anyCase_one (c := 'x').mpr h0) h3 (by simp [HexDigits]) (.whole h4) .none
    rw [List.append_nil] at this
    exact ⟨_, this, by simp [floatValue, scale_eq]⟩
  | hfrac =>
    obtain ⟨x, ds, fs, h0, h3, h4, h5, rfl, rfl⟩ := h2
    have := Magnitude.hex (power := []) (anyCase_one (c := 'x').mpr h0) h3 h4 (.point h5) .none
    rw [List.append_nil] at this
    exact ⟨_, this, by simp [floatValue, scale_eq]⟩

/-- What has been read in a final state. -/
theorem ReadAll.text {st : FloatState} {a : FloatAcc} {l : List UInt8} {v : Fl} (h : ReadAll st a l) (hv : floatValue st a = some v)
    (hf : (st.finite && !v.isfinite) = false) : FloatText v l := by
  cases hs : st.finite with
  | true =>
    obtain ⟨neg, sg, t, q, h1, rfl, h2, h3⟩ := h.number hs
    rw [h3] at hv
    cases hv
    refine .number h1 h2 ?_
    simpa [hs] using hf
  | false =>
    obtain ⟨neg, sg, t, h1, _, rfl, h2⟩ := h
    cases st with
    | start | sign | point | e | esign | hex | hpoint | nanOpen => cases hv
    | zero | int | frac | exp | hint | hfrac => cases hs
    | inf k =>
      obtain ⟨h3, h4, rfl⟩ := h2
      simp only [floatValue] at hv
      split_ifs at hv with hk
      cases hv
      refine .inf h1 ?_
      rcases hk with rfl | rfl
      · exact Or.inl h3
      · exact Or.inr h3
    | nan k =>
      obtain ⟨h3, h4, rfl⟩ := h2
      simp only [floatValue] at hv
      split_ifs at hv with hk
      cases hv
      subst hk
      have := FloatText.nan h1 (l := t) (more := []) h3 (Or.inl rfl)
      rwa [List.append_nil] at this
    | nanDone =>
      obtain ⟨t', body, h3, h4, rfl, rfl⟩ := h2
      cases hv
      exact .nan h1 h3 (Or.inr ⟨body, h4, rfl⟩)

theorem readAll_start : ReadAll .start ⟨false, 0, 0, false, 0, false⟩ [] := ⟨false, [], [], .none, fun _ => rfl, rfl, rfl, rfl, rfl⟩

theorem Spec.Magnitude.nonneg {q : ℚ} {l : List UInt8} (h : Magnitude q l) : 0 ≤ q := by
  cases h <;> positivity

theorem floatMax_rnd : binary32.rndAbs floatMax = floatMax ∧ floatMax < pow2 binary32.emax := by decide +kernel

/-- Delivering a number that is not too large. -/
theorem deliver_finite {neg : Bool} {v : ℚ} (h0 : 0 ≤ v) (h2 : v ≤ floatMax) : (binary32.deliver neg (if neg then -v else v)).isfinite = true := by
  have a2 : binary32.rndAbs v ≤ floatMax := by
    rw [← floatMax_rnd.1]
    exact Fmt.rndAbs_mono _ (by decide) h0 h2
  have hr : binary32.rnd v = binary32.rndAbs v := by
    unfold Fmt.rnd
    first
    | rw [if_pos h0]
    | rw [if_neg (not_lt.mpr h0)]
  have h3 : ¬ (pow2 binary32.emax ≤ |binary32.rnd v|) := by
    rw [abs_of_nonneg (Fmt.rnd_nonneg _ h0), hr, not_le]
    exact lt_of_le_of_lt a2 floatMax_rnd.2
  unfold Fmt.deliver
  cases neg with
  | false =>
    simp only [Bool.false_eq_true, if_false]
    split
    · rfl
    · rfl
  | true =>
    simp only [if_true]
    split
    · rfl
    · first | rfl | (rw [Fmt.rnd_neg, abs_neg, if_neg h3]; rfl)

/-! ## Every such text is read -/

/-- Reading the text takes the recogniser from one state to another. -/
def Leads (l : List UInt8) (st : FloatState) (a : FloatAcc) (st' : FloatState) (a' : FloatAcc) : Prop :=
  ∀ r n, floatRun (l ++ r) st a n = floatRun r st' a' (n + l.length)

theorem Leads.nil {st : FloatState} {a : FloatAcc} : Leads [] st a st a := fun _ _ => rfl

theorem Leads.trans {l l' : List UInt8} {st st' st'' : FloatState} {a a' a'' : FloatAcc} (h : Leads l st a st' a') (h' : Leads l' st' a' st'' a'') :
    Leads (l ++ l') st a st'' a'' := by
  intro r n
  rw [List.append_assoc, h, h', List.length_append, Nat.add_assoc]

theorem Leads.one {b : UInt8} {st st' : FloatState} {a a' : FloatAcc} (h : floatStep st a b = some (st', a')) : Leads [b] st a st' a' := by
  intro r n
  rw [List.singleton_append, floatRun, h]; rfl

theorem Leads.cons {b : UInt8} {l : List UInt8} {st st' st'' : FloatState} {a a' a'' : FloatAcc} (h : floatStep st a b = some (st', a'))
    (h' : Leads l st' a' st'' a'') : Leads (b :: l) st a st'' a'' := Leads.trans (Leads.one h) h'

/-- Folding over a list of characters. -/
theorem Leads.fold {st : FloatState} {ok : UInt8 → Prop} {g : FloatAcc → UInt8 → FloatAcc} (hg : ∀ a b, ok b → floatStep st a b = some (st, g a b)) :
    ∀ {l : List UInt8} {a : FloatAcc}, (∀ b ∈ l, ok b) → Leads l st a st (l.foldl g a)
  | [], _, _ => .nil
  | b :: l, a, h => .cons (hg a b (h b (by simp))) (Leads.fold hg (fun x hx => h x (by simp [hx])))

theorem hexDigits_mem {l : List UInt8} (h : HexDigits l) : ∀ b ∈ l, hexDigit b = some (nibble b) :=
  fun b hb => hexDigit_some (fun x hx => h x (by rw [List.mem_singleton] at hx; rwa [hx]))

theorem leads_exp {ds : List UInt8} (h : Digits ds) {a : FloatAcc} {pre : List UInt8} :
    Leads ds .exp { a with exp := value pre } .exp { a with exp := value (pre ++ ds) } := by
  induction ds generalizing pre with
  | nil => rw [List.append_nil]; exact .nil
  | cons b l ih =>
    refine Leads.cons (st' := .exp) (a' := { a with exp := value (pre ++ [b]) }) ?_ ?_
    · simp [floatStep, h.isdigit b (by simp), value_snoc]
    · have := ih (fun x hx => h x (by simp [hx])) (pre := pre ++ [b])
      rwa [List.append_assoc] at this

theorem leads_hint {ds : List UInt8} (h : HexDigits ds) {a : FloatAcc} {pre : List UInt8} :
    Leads ds .hint { a with mant := hexValue pre } .hint { a with mant := hexValue (pre ++ ds) } := by
  induction ds generalizing pre with
  | nil => rw [List.append_nil]; exact .nil
  | cons b l ih =>
    refine Leads.cons (st' := .hint) (a' := { a with mant := hexValue (pre ++ [b]) }) ?_ ?_
    · simp [floatStep, hexDigits_mem h b (by simp), hexValue_snoc]
    · have := ih (fun x hx => h x (by simp [hx])) (pre := pre ++ [b])
      rwa [List.append_assoc] at this

theorem leads_hfrac {fs : List UInt8} (h : HexDigits fs) {a : FloatAcc} {pre : List UInt8} {f : ℕ} :
    Leads fs .hfrac { a with mant := hexValue pre, fracs := f } .hfrac { a with mant := hexValue (pre ++ fs), fracs := f + fs.length } := by
  induction fs generalizing pre f with
  | nil => rw [List.append_nil]; exact .nil
  | cons b l ih =>
    refine Leads.cons (st' := .hfrac) (a' := { a with mant := hexValue (pre ++ [b]), fracs := f + 1 }) ?_ ?_
    · simp [floatStep, hexDigits_mem h b (by simp), hexValue_snoc]
    · have := ih (fun x hx => h x (by simp [hx])) (pre := pre ++ [b]) (f := f + 1)
      rw [List.append_assoc, Nat.add_assoc, Nat.add_comm 1] at this
      exact this

theorem leads_int {ds : List UInt8} (h : Digits ds) {a : FloatAcc} {pre : List UInt8} :
    Leads ds .int { a with mant := value pre } .int { a with mant := value (pre ++ ds) } := by
  induction ds generalizing pre with
  | nil => rw [List.append_nil]; exact .nil
  | cons b l ih =>
    refine Leads.cons (st' := .int) (a' := { a with mant := value (pre ++ [b]) }) ?_ ?_
    · simp [floatStep, h.isdigit b (by simp), value_snoc]
    · have := ih (fun x hx => h x (by simp [hx])) (pre := pre ++ [b])
      rwa [List.append_assoc] at this

theorem leads_frac {fs : List UInt8} (h : Digits fs) {a : FloatAcc} {pre : List UInt8} {f : ℕ} :
    Leads fs .frac { a with mant := value pre, fracs := f } .frac { a with mant := value (pre ++ fs), fracs := f + fs.length } := by
  induction fs generalizing pre f with
  | nil => rw [List.append_nil]; exact .nil
  | cons b l ih =>
    refine Leads.cons (st' := .frac) (a' := { a with mant := value (pre ++ [b]), fracs := f + 1 }) ?_ ?_
    · simp [floatStep, h.isdigit b (by simp), value_snoc]
    · have := ih (fun x hx => h x (by simp [hx])) (pre := pre ++ [b]) (f := f + 1)
      rw [List.append_assoc, Nat.add_assoc, Nat.add_comm 1] at this
      exact this

/-- Digits after a sign or none. -/
theorem leads_whole {ds : List UInt8} (h : Digits ds) (h0 : ds ≠ []) {neg : Bool} {st : FloatState} (hst : st = .start ∨ st = .sign) :
    ∃ st', Whole st' ∧ Leads ds st ⟨neg, 0, 0, false, 0, false⟩ st' ⟨neg, value ds, 0, false, 0, false⟩ := by
  obtain ⟨b, l, rfl⟩ := List.exists_cons_of_ne_nil h0
  have hb := h.isdigit b (by simp)
  obtain ⟨n1, n2⟩ := digit_facts hb
  have hl : Digits l := fun x hx => h x (by simp [hx])
  by_cases hz : b = ch '0'
  · have h1 : floatStep st ⟨neg, 0, 0, false, 0, false⟩ b = some (.zero, ⟨neg, 0, 0, false, 0, false⟩) := by
      subst hz
      rcases hst with rfl | rfl <;> simp [floatStep, n1, n2]
    cases l with
    | nil =>
      refine ⟨.zero, Or.inl rfl, ?_⟩
      rw [hz, show value [ch '0'] = 0 by decide, ← hz]
      exact .one h1
    | cons c l =>
      refine ⟨.int, Or.inr rfl, .cons h1 (.cons (st' := .int) (a' := ⟨neg, value [b, c], 0, false, 0, false⟩) ?_ ?_)⟩
      · have := value_snoc [b] c
        simp only [List.singleton_append] at this
        rw [this, hz, show value [ch '0'] = 0 by decide]
        simp [floatStep, hl.isdigit c (by simp)]
      · exact leads_int (a := ⟨neg, 0, 0, false, 0, false⟩) (pre := [b, c]) (fun x hx => hl x (by simp [hx]))
  · refine ⟨.int, Or.inr rfl, .cons (st' := .int) (a' := ⟨neg, value [b], 0, false, 0, false⟩) ?_ ?_⟩
    · rcases hst with rfl | rfl <;> simp [floatStep, n1, n2, hz, hb, value]
    · exact leads_int (a := ⟨neg, 0, 0, false, 0, false⟩) (pre := [b]) hl

/-- States in which the digits of a number are complete. -/
def Mantissed (hex : Bool) (st : FloatState) : Prop := if hex then st = .hint ∨ st = .hfrac else st = .zero ∨ st = .int ∨ st = .frac

theorem leads_mantissa {hex : Bool} {m f : ℕ} {l : List UInt8} (h : Mantissa hex m f l) {neg : Bool} {st : FloatState} (hst : st = .start ∨ st = .sign) :
    ∃ st', Mantissed hex st' ∧ Leads l st ⟨neg, 0, 0, false, 0, false⟩ st' ⟨neg, m, f, false, 0, hex⟩ := by
  cases h with
  | @dec ds fs text h1 h2 h3 =>
    cases h3 with
    | whole h0 =>
      obtain ⟨st', hw, hl⟩ := leads_whole h1 h0 (neg := neg) hst
      refine ⟨st', ?_, by simpa using hl⟩
      rcases hw with rfl | rfl
      · exact Or.inl rfl
      · exact Or.inr (Or.inl rfl)
    | point h0 =>
      refine ⟨.frac, Or.inr (Or.inr rfl), ?_⟩
      by_cases hd : ds = []
      · subst hd
        obtain ⟨b, l, rfl⟩ := List.exists_cons_of_ne_nil (show fs ≠ [] by simpa using h0)
        have hb := h2.isdigit b (by simp)
        refine .cons (st' := .point) (a' := ⟨neg, 0, 0, false, 0, false⟩) ?_ (.cons (st' := .frac) (a' := ⟨neg, value [b], 1, false, 0, false⟩) ?_ ?_)
        · rcases hst with rfl | rfl <;> rfl
        · simp [floatStep, hb, value]
        · have := leads_frac (a := ⟨neg, 0, 0, false, 0, false⟩) (pre := [b]) (f := 1) (fs := l) (fun x hx => h2 x (by simp [hx]))
          rw [Nat.add_comm 1] at this
          exact this
      · obtain ⟨st', hw, hl⟩ := leads_whole h1 hd (neg := neg) hst
        refine hl.trans (.cons (st' := .frac) (a' := ⟨neg, value ds, 0, false, 0, false⟩) ?_ ?_)
        · rcases hw with rfl | rfl <;> rfl
        · have := leads_frac (a := ⟨neg, 0, 0, false, 0, false⟩) (pre := ds) (f := 0) h2
          rwa [Nat.zero_add] at this
  | @hex x ds fs text hx h1 h2 h3 =>
    have e1 : floatStep st ⟨neg, 0, 0, false, 0, false⟩ (ch '0') = some (.zero, ⟨neg, 0, 0, false, 0, false⟩) := by rcases hst with rfl | rfl <;> rfl
    have e2 : floatStep .zero ⟨neg, 0, 0, false, 0, false⟩ x = some (.hex, ⟨neg, 0, 0, false, 0, true⟩) := by
      have h4 : isdigit x = false ∧ x ≠ ch '.' := by
        revert hx; revert x
        exact fun {b} => byte_all (P := fun b => tolower b = ch 'x' → isdigit b = false ∧ b ≠ ch '.') (by decide +kernel) b
      simp only [floatStep, h4.1, hx]
      rw [if_neg (by simp), if_neg h4.2, if_neg (by decide)]; rfl
    have nodot : ∀ b, HexDigits [b] → hexDigit b = some (nibble b) := fun b hb => hexDigit_some hb
    have dot : hexDigit (ch '.') = none := by decide
    have start : ∀ ds, HexDigits ds → ds ≠ [] → Leads ds .hex ⟨neg, 0, 0, false, 0, true⟩ .hint ⟨neg, hexValue ds, 0, false, 0, true⟩ := by
      intro ds h1 h0
      obtain ⟨b, l, rfl⟩ := List.exists_cons_of_ne_nil h0
      refine .cons (st' := .hint) (a' := ⟨neg, hexValue [b], 0, false, 0, true⟩) ?_ ?_
      · simp only [floatStep, hexDigits_mem h1 b (by simp)]
        simp [hexValue, nibble]
      · exact leads_hint (a := ⟨neg, 0, 0, false, 0, true⟩) (pre := [b]) (fun x hx => h1 x (by simp [hx]))
    cases h3 with
    | whole h0 =>
      refine ⟨.hint, Or.inl rfl, .cons e1 (.cons e2 ?_)⟩
      simpa using start _ h1 h0
    | point h0 =>
      refine ⟨.hfrac, Or.inr rfl, .cons e1 (.cons e2 ?_)⟩
      by_cases hd : ds = []
      · subst hd
        obtain ⟨b, l, rfl⟩ := List.exists_cons_of_ne_nil (show fs ≠ [] by simpa using h0)
        refine .cons (st' := .hpoint) (a' := ⟨neg, 0, 0, false, 0, true⟩) ?_ (.cons (st' := .hfrac) (a' := ⟨neg, hexValue [b], 1, false, 0, true⟩) ?_ ?_)
        · simp [floatStep, dot]
        · simp only [floatStep, hexDigits_mem h2 b (by simp)]
          simp [hexValue, nibble]
        · have := leads_hfrac (a := ⟨neg, 0, 0, false, 0, true⟩) (pre := [b]) (f := 1) (fs := l) (fun x hx => h2 x (by simp [hx]))
          rw [Nat.add_comm 1] at this
          exact this
      · refine (start ds h1 hd).trans (.cons (st' := .hfrac) (a' := ⟨neg, hexValue ds, 0, false, 0, true⟩) ?_ ?_)
        · simp [floatStep, dot]
        · have := leads_hfrac (a := ⟨neg, 0, 0, false, 0, true⟩) (pre := ds) (f := 0) h2
          rwa [Nat.zero_add] at this

theorem leads_power {hex : Bool} {b : UInt8} {en : Bool} {es ds : List UInt8} (hb : tolower b = ch (powerLetter hex)) (hs : FloatSign en es) (hd : Digits ds)
    (h0 : ds ≠ []) {st : FloatState} (hst : Mantissed hex st) {neg : Bool} {m f : ℕ} :
    Leads (b :: (es ++ ds)) st ⟨neg, m, f, false, 0, hex⟩ .exp ⟨neg, m, f, en, value ds, hex⟩ := by
  refine .cons (st' := .e) (a' := ⟨neg, m, f, false, 0, hex⟩) ?_ ?_
  · cases hex with
    | false =>
      have h4 : isdigit b = false ∧ b ≠ ch '.' := by
        revert hb; revert b
        exact fun {b} => byte_all (P := fun b => tolower b = ch 'e' → isdigit b = false ∧ b ≠ ch '.') (by decide +kernel) b
      have hb' : tolower b = ch 'e' := hb
      rcases hst with rfl | rfl | rfl <;> simp [floatStep, h4.1, h4.2, hb']
    | true =>
      have h4 : hexDigit b = none ∧ b ≠ ch '.' := by
        revert hb; revert b
        exact fun {b} => byte_all (P := fun b => tolower b = ch 'p' → hexDigit b = none ∧ b ≠ ch '.') (by decide +kernel) b
      have hb' : tolower b = ch 'p' := hb
      rcases hst with rfl | rfl <;> simp [floatStep, h4.1, h4.2, hb']
  · obtain ⟨c, l, rfl⟩ := List.exists_cons_of_ne_nil h0
    have hc := hd.isdigit c (by simp)
    have hl : Leads l .exp ⟨neg, m, f, en, value [c], hex⟩ .exp ⟨neg, m, f, en, value (c :: l), hex⟩ :=
      leads_exp (a := ⟨neg, m, f, en, 0, hex⟩) (pre := [c]) (fun x hx => hd x (by simp [hx]))
    obtain ⟨n1, n2⟩ := digit_facts hc
    have sgn : floatStep .esign ⟨neg, m, f, en, 0, hex⟩ c = some (.exp, ⟨neg, m, f, en, value [c], hex⟩) := by simp [floatStep, hc, value]
    cases hs with
    | none => exact .cons (by simp [floatStep, hc, value, n1, n2]) hl
    | plus => exact .cons (st' := .esign) (a' := ⟨neg, m, f, false, 0, hex⟩) (by rfl) (.cons sgn hl)
    | minus => exact .cons (st' := .esign) (a' := ⟨neg, m, f, true, 0, hex⟩) (by rfl) (.cons sgn hl)

theorem leads_inf {t : List UInt8} {a : FloatAcc} : ∀ {k : ℕ}, t.map tolower = ((cs "infinity").drop k).take t.length → Leads t (.inf k) a (.inf (k + t.length)) a := by
  induction t with
  | nil => intro k _; exact .nil
  | cons b l ih =>
    intro k h
    rw [List.map_cons, List.length_cons] at h
    have hk : (cs "infinity")[k]? = some (tolower b) := by
      have := congrArg (fun l => l[0]?) h
      simpa [List.getElem?_take] using this.symm
    refine .cons (st' := .inf (k + 1)) (a' := a) (by simp [floatStep, hk]) ?_
    have := ih (k := k + 1) (by
      have hd : (cs "infinity").drop k = tolower b :: (cs "infinity").drop (k + 1) := by
        obtain ⟨hlt, he⟩ := List.getElem?_eq_some_iff.mp hk
        rw [List.drop_eq_getElem_cons hlt, he]
      rw [hd, List.take_succ_cons] at h
      exact (List.cons.inj h).2)
    rw [List.length_cons, show k + (l.length + 1) = k + 1 + l.length by omega]
    exact this

theorem leads_start {c : Char} {st' : FloatState} (hc : c = 'i' ∧ st' = .inf 1 ∨ c = 'n' ∧ st' = .nan 1) {b : UInt8} (hb : tolower b = ch c) {neg : Bool}
    {st : FloatState} (hst : st = .start ∨ st = .sign) :
    floatStep st ⟨neg, 0, 0, false, 0, false⟩ b = some (st', ⟨neg, 0, 0, false, 0, false⟩) := by
  have h4 : b ≠ ch '-' ∧ b ≠ ch '+' ∧ b ≠ ch '0' ∧ isdigit b = false ∧ b ≠ ch '.' := by
    have h5 : tolower b = ch 'i' ∨ tolower b = ch 'n' := by rcases hc with ⟨rfl, _⟩ | ⟨rfl, _⟩ <;> simp [hb]
    clear hb
    revert h5; revert b
    exact fun {b} => byte_all (P := fun b => tolower b = ch 'i' ∨ tolower b = ch 'n' → b ≠ ch '-' ∧ b ≠ ch '+' ∧ b ≠ ch '0' ∧ isdigit b = false ∧
      b ≠ ch '.') (by decide +kernel) b
  have ne : ch 'n' ≠ ch 'i' := by decide
  rcases hc with ⟨rfl, rfl⟩ | ⟨rfl, rfl⟩ <;> rcases hst with rfl | rfl <;> simp [floatStep, h4, hb, ne]

theorem leads_nan {t : List UInt8} (h : AnyCase "nan" t) {neg : Bool} {st : FloatState} (hst : st = .start ∨ st = .sign) :
    Leads t st ⟨neg, 0, 0, false, 0, false⟩ (.nan 3) ⟨neg, 0, 0, false, 0, false⟩ := by
  unfold AnyCase at h
  rw [show cs "nan" = [ch 'n', ch 'a', ch 'n'] by decide] at h
  obtain ⟨x, t1, rfl, h1, h⟩ := List.map_eq_cons_iff.mp h
  obtain ⟨y, t2, rfl, h2, h⟩ := List.map_eq_cons_iff.mp h
  obtain ⟨z, t3, rfl, h3, h⟩ := List.map_eq_cons_iff.mp h
  obtain rfl := List.map_eq_nil_iff.mp h
  · refine .cons (leads_start (Or.inr ⟨rfl, rfl⟩) h1 hst) (.cons (st' := .nan 2) (a' := ⟨neg, 0, 0, false, 0, false⟩) ?_ (.one ?_))
    · simp only [floatStep, h2]; rfl
    · simp only [floatStep, h3]; rfl

theorem leads_body {body : List UInt8} (h : NanBody body) {a : FloatAcc} : Leads body .nanOpen a .nanOpen a := by
  induction body with
  | nil => exact .nil
  | cons b l ih =>
    have hb : NanBody [b] := fun x hx => h x (by rw [List.mem_singleton] at hx; simp [hx])
    refine .cons ?_ (ih (fun x hx => h x (by simp [hx])))
    have h4 : b ≠ ch ')' := by
      rintro rfl
      exact absurd ((nanBody_one _).mp hb) (by decide)
    simp only [floatStep]
    rw [if_neg h4, if_pos ((nanBody_one b).mp hb)]

theorem leads_infinity {t : List UInt8} {n : ℕ} (hn : 0 < n) (h : t.map tolower = (cs "infinity").take n) (hl : t.length = n) {neg : Bool} {st : FloatState}
    (hst : st = .start ∨ st = .sign) : Leads t st ⟨neg, 0, 0, false, 0, false⟩ (.inf n) ⟨neg, 0, 0, false, 0, false⟩ := by
  obtain ⟨m, rfl⟩ : ∃ m, n = m + 1 := ⟨n - 1, by omega⟩
  rw [show cs "infinity" = ch 'i' :: cs "nfinity" by decide, List.take_succ_cons] at h
  cases t with
  | nil => cases h
  | cons b l =>
    rw [List.map_cons, List.cons.injEq] at h
    have hl' : l.length = m := by simpa using hl
    refine .cons (leads_start (Or.inl ⟨rfl, rfl⟩) h.1 hst) ?_
    have := leads_inf (a := ⟨neg, 0, 0, false, 0, false⟩) (t := l) (k := 1) (by rw [hl', h.2]; rfl)
    rw [hl', Nat.add_comm] at this
    exact this

/-- The recogniser reads all of such a text and stops at the white space after it. -/
theorem FloatText.run {v : Fl} {l r : List UInt8} {sp : UInt8} (h : FloatText v l) (hsp : isspace sp = true) :
    ∃ st a, floatRun (l ++ sp :: r) .start ⟨false, 0, 0, false, 0, false⟩ 0 = (st, a, l.length) ∧ floatValue st a = some v ∧ (st.finite && !v.isfinite) = false := by
  have sign : ∀ {neg : Bool} {sg : List UInt8}, FloatSign neg sg → ∃ st, (st = .start ∨ st = .sign) ∧
      Leads sg .start ⟨false, 0, 0, false, 0, false⟩ st ⟨neg, 0, 0, false, 0, false⟩ := by
    intro neg sg hs
    cases hs with
    | none => exact ⟨.start, Or.inl rfl, .nil⟩
    | plus => exact ⟨.sign, Or.inr rfl, .one rfl⟩
    | minus => exact ⟨.sign, Or.inr rfl, .one rfl⟩
  have close : ∀ {st : FloatState} {a : FloatAcc}, Leads l .start ⟨false, 0, 0, false, 0, false⟩ st a →
      floatRun (l ++ sp :: r) .start ⟨false, 0, 0, false, 0, false⟩ 0 = (st, a, l.length) := by
    intro st a hl
    rw [hl, floatRun, floatStep_space hsp, Nat.zero_add]
  cases h with
  | @number neg sg t q hs hm hf =>
    obtain ⟨st0, h0, hl0⟩ := sign hs
    have key : ∃ st a, Leads t st0 ⟨neg, 0, 0, false, 0, false⟩ st a ∧
        floatValue st a = some (binary32.deliver neg (if neg then -q else q)) := by
      cases hm with
      | @decimal ds fs text power z h1 h2 h3 h4 =>
        obtain ⟨st1, h5, h6⟩ := leads_mantissa (.dec h1 h2 h3) (neg := neg) h0
        cases h4 with
        | none =>
          refine ⟨st1, _, by simpa using h6, ?_⟩
          rcases h5 with rfl | rfl | rfl <;> simp [floatValue, scale_eq]
        | @some b en n es ds' h7 h8 h9 =>
          refine ⟨.exp, _, h6.trans (leads_power (hex := false) ((anyCase_one (c := 'e')).mp h7) h8 h9.2.1 h9.1 h5), ?_⟩
          simp [floatValue, scale_eq, h9.2.2]
      | @hex x ds fs text power z hx h1 h2 h3 h4 =>
        obtain ⟨st1, h5, h6⟩ := leads_mantissa (.hex ((anyCase_one (c := 'x')).mp hx) h1 h2 h3) (neg := neg) h0
        cases h4 with
        | none =>
          refine ⟨st1, _, by simpa using h6, ?_⟩
          rcases h5 with rfl | rfl <;> simp [floatValue, scale_eq]
        | @some b en n es ds' h7 h8 h9 =>
          refine ⟨.exp, _, h6.trans (leads_power (hex := true) ((anyCase_one (c := 'p')).mp h7) h8 h9.2.1 h9.1 h5), ?_⟩
          simp [floatValue, scale_eq, h9.2.2]
    obtain ⟨st, a, h1, h2⟩ := key
    exact ⟨st, a, close (hl0.trans h1), h2, by simp [hf]⟩
  | @inf neg sg t hs ht =>
    obtain ⟨st0, h0, hl0⟩ := sign hs
    rcases ht with ht | ht
    · refine ⟨.inf 3, _, close (hl0.trans (leads_infinity (n := 3) (by omega) ht ?_ h0)), by simp [floatValue], rfl⟩
      have := congrArg List.length ht
      rw [List.length_map] at this
      exact this
    · refine ⟨.inf 8, _, close (hl0.trans (leads_infinity (n := 8) (by omega) ht ?_ h0)), by simp [floatValue], rfl⟩
      have := congrArg List.length ht
      rw [List.length_map] at this
      exact this
  | @nan neg sg t more hs ht hm =>
    obtain ⟨st0, h0, hl0⟩ := sign hs
    rcases hm with rfl | ⟨body, hb, rfl⟩
    · exact ⟨.nan 3, _, close (hl0.trans (by simpa using leads_nan ht h0)), by simp [floatValue], rfl⟩
    · exact ⟨.nanDone, _, close (hl0.trans ((leads_nan ht h0).trans (.cons (st' := .nanOpen) rfl ((leads_body hb).trans (.one rfl))))),
        by simp [floatValue], rfl⟩

end Verif
