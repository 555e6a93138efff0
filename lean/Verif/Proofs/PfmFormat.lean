import Verif.Proofs.Y4mFormat
import Verif.Proofs.AnyFile

/-! The PFM reader on PFM files. -/

namespace Verif

open Spec Verif.Stream

/-! ## The scale factor -/

/-- Within the digits before the point. -/
def Whole (st : FloatState) : Prop := st = .zero ∨ st = .int

theorem digit_facts {b : UInt8} (h : isdigit b = true) : b ≠ ch '-' ∧ b ≠ ch '+' := by
  constructor <;> (rintro rfl; revert h; decide)

theorem space_facts {b : UInt8} (h : isspace b = true) : isdigit b = false ∧ b ≠ ch '.' ∧ tolower b ≠ ch 'e' ∧ tolower b ≠ ch 'x' := by
  have hb : b = b.toNat.toUInt8 := by simp
  rw [isspace_iff] at h
  have : b.toNat = 32 ∨ b.toNat = 9 ∨ b.toNat = 10 ∨ b.toNat = 11 ∨ b.toNat = 12 ∨ b.toNat = 13 := by omega
  rcases this with h | h | h | h | h | h <;> (rw [hb, h]; decide)

theorem value_cons (b : UInt8) (l : List UInt8) : value (b :: l) = (b.toNat - 48) * 10 ^ l.length + value l := by
  have := value_append [b] l
  simpa [value] using this

theorem floatRun_int {ds r : List UInt8} (hd : Digits ds) {st : FloatState} (hs : Whole st) {a : FloatAcc} {n : ℕ} :
    ∃ st', Whole st' ∧ floatRun (ds ++ r) st a n = floatRun r st' { a with mant := a.mant * 10 ^ ds.length + value ds } (n + ds.length) := by
  induction ds generalizing st a n with
  | nil => exact ⟨st, hs, by simp [value]⟩
  | cons b l ih =>
    have hb := hd.isdigit b (by simp)
    obtain ⟨st', h1, h2⟩ := ih (fun x hx => hd x (by simp [hx])) (Or.inr rfl) (a := { a with mant := 10 * a.mant + (b.toNat - 48) }) (n := n + 1)
    refine ⟨st', h1, ?_⟩
    have : floatStep st a b = some (.int, { a with mant := 10 * a.mant + (b.toNat - 48) }) := by
      rcases hs with rfl | rfl <;> simp [floatStep, hb]
    rw [List.cons_append, floatRun, this]
    simp only
    rw [h2, value_cons]
    have e1 : (10 * a.mant + (b.toNat - 48)) * 10 ^ l.length + value l = a.mant * 10 ^ (b :: l).length + ((b.toNat - 48) * 10 ^ l.length + value l) := by
      rw [List.length_cons, pow_succ]; ring
    have e2 : n + 1 + l.length = n + (b :: l).length := by rw [List.length_cons]; omega
    rw [e1, e2]

theorem floatRun_frac {ds r : List UInt8} (hd : Digits ds) {a : FloatAcc} {n : ℕ} :
    floatRun (ds ++ r) .frac a n = floatRun r .frac { a with mant := a.mant * 10 ^ ds.length + value ds, fracs := a.fracs + ds.length } (n + ds.length) := by
  induction ds generalizing a n with
  | nil => simp [value]
  | cons b l ih =>
    have hb := hd.isdigit b (by simp)
    have : floatStep .frac a b = some (.frac, { a with mant := 10 * a.mant + (b.toNat - 48), fracs := a.fracs + 1 }) := by
      simp [floatStep, hb]
    rw [List.cons_append, floatRun, this]
    simp only
    rw [ih (fun x hx => hd x (by simp [hx])), value_cons]
    have e1 : (10 * a.mant + (b.toNat - 48)) * 10 ^ l.length + value l = a.mant * 10 ^ (b :: l).length + ((b.toNat - 48) * 10 ^ l.length + value l) := by
      rw [List.length_cons, pow_succ]; ring
    have e2 : n + 1 + l.length = n + (b :: l).length := by rw [List.length_cons]; omega
    have e3 : a.fracs + 1 + l.length = a.fracs + (b :: l).length := by rw [List.length_cons]; omega
    rw [e1, e2, e3]

theorem floatRun_stop {b : UInt8} {r : List UInt8} {st : FloatState} {a : FloatAcc} {n : ℕ} (hb : isspace b = true)
    (hs : Whole st ∨ st = .frac) : floatRun (b :: r) st a n = (st, a, n) := by
  obtain ⟨h1, h2, h3, h4⟩ := space_facts hb
  have : floatStep st a b = none := by
    rcases hs with (rfl | rfl) | rfl <;> simp [floatStep, h1, h2, h3, h4]
  rw [floatRun, this]

/-- Sign and digits before the point. -/
theorem floatRun_start {little : Bool} {i r : List UInt8} (hi : Digits i) (h0 : i ≠ []) :
    ∃ st', Whole st' ∧ floatRun ((if little then [ch '-'] else []) ++ (i ++ r)) .start ⟨false, 0, 0, false, 0, false⟩ 0 =
      floatRun r st' ⟨little, value i, 0, false, 0, false⟩ ((if little then [ch '-'] else []) ++ i).length := by
  have key : ∀ (st : FloatState) (a : FloatAcc) (n : ℕ), st = .start ∨ st = .sign → a.mant = 0 →
      ∃ st', Whole st' ∧ floatRun (i ++ r) st a n = floatRun r st' { a with mant := value i } (n + i.length) := by
    intro st a n hst hm
    cases i with
    | nil => exact absurd rfl h0
    | cons b l =>
      have hb := hi.isdigit b (by simp)
      obtain ⟨n1, n2⟩ := digit_facts hb
      obtain ⟨st1, hw, hstep⟩ : ∃ st1, Whole st1 ∧ floatStep st a b = some (st1, { a with mant := b.toNat - 48 }) := by
        by_cases hz : b = ch '0'
        · refine ⟨.zero, Or.inl rfl, ?_⟩
          subst hz
          have e : (ch '0').toNat - 48 = a.mant := by rw [hm]; decide
          rw [e]
          rcases hst with rfl | rfl <;> simp [floatStep, n1, n2]
        · refine ⟨.int, Or.inr rfl, ?_⟩
          rcases hst with rfl | rfl <;> simp [floatStep, n1, n2, hz, hb, hm]
      obtain ⟨st', h1, h2⟩ := floatRun_int (r := r) (fun x hx => hi x (by simp [hx]) : Digits l) hw (a := { a with mant := b.toNat - 48 }) (n := n + 1)
      refine ⟨st', h1, ?_⟩
      rw [List.cons_append, floatRun, hstep]
      simp only
      rw [h2, value_cons]
      have e2 : n + 1 + l.length = n + (b :: l).length := by rw [List.length_cons]; omega
      rw [e2]
  cases little with
  | false =>
    obtain ⟨st', h1, h2⟩ := key .start ⟨false, 0, 0, false, 0, false⟩ 0 (Or.inl rfl) rfl
    exact ⟨st', h1, by simpa using h2⟩
  | true =>
    obtain ⟨st', h1, h2⟩ := key .sign ⟨true, 0, 0, false, 0, false⟩ 1 (Or.inr rfl) rfl
    refine ⟨st', h1, ?_⟩
    simp only [if_true, List.singleton_append]
    have : floatStep .start ⟨false, 0, 0, false, 0, false⟩ (ch '-') = some (.sign, ⟨true, 0, 0, false, 0, false⟩) := by decide
    rw [floatRun, this]
    simp only
    rw [h2, List.length_cons, Nat.add_comm]

/-- Delivering a number that is neither too small nor too large keeps its sign. -/
theorem deliver_sign {little : Bool} {v : ℚ} (h1 : (2 : ℚ) ^ (-126 : ℤ) ≤ v) (h2 : v < 2 ^ 127) :
    ∃ q, binary32.deliver little (if little then -v else v) = .fin little q ∧ (Fl.fin little q).lt (.fin false 0) = little := by
  have hv : 0 < v := lt_of_lt_of_le (by positivity) h1
  have e1 : pow2 (-126) = (2 : ℚ) ^ (-126 : ℤ) := pow2_eq _
  have e2 : pow2 127 = (2 : ℚ) ^ 127 := pow2_natCast 127
  have a1 : pow2 (-126) ≤ binary32.rndAbs v := by
    rw [← Fmt.rndAbs_pow2 binary32 (by decide) (e := -126) (by decide)]
    exact Fmt.rndAbs_mono _ (by decide) (pow2_pos _).le (by rw [e1]; exact h1)
  have a2 : binary32.rndAbs v ≤ pow2 127 := by
    rw [← Fmt.rndAbs_pow2 binary32 (by decide) (e := 127) (by decide)]
    exact Fmt.rndAbs_mono _ (by decide) hv.le (by rw [e2]; exact h2.le)
  have hr : binary32.rnd v = binary32.rndAbs v := by
    unfold Fmt.rnd
    first
    | rw [if_pos hv.le]
    | rw [if_neg (not_lt.mpr hv.le)]
  have h3 : ¬ (pow2 binary32.emax ≤ |binary32.rnd v|) := by
    rw [hr, abs_of_nonneg (le_trans (pow2_pos _).le a1), not_le]
    exact lt_of_le_of_lt a2 (pow2_lt (by decide))
  have h4 : 0 < binary32.rnd v := by rw [hr]; exact lt_of_lt_of_le (pow2_pos _) a1
  unfold Fmt.deliver
  cases little with
  | false =>
    simp only [Bool.false_eq_true, if_false]
    rw [if_neg hv.ne', if_neg h3]
    refine ⟨binary32.rnd v, by simp [hv.le], ?_⟩
    simp only [Fl.lt]
    simpa using h4.le
  | true =>
    simp only [if_true]
    rw [if_neg (by simp [hv.ne']), Fmt.rnd_neg, abs_neg, if_neg h3]
    refine ⟨-binary32.rnd v, by simp [hv], ?_⟩
    simp only [Fl.lt]
    simpa using h4

theorem scale_zero (m base : ℕ) : Stream.scale m base 0 = m := by simp [Stream.scale]

theorem scale_neg (m f : ℕ) : Stream.scale m 10 (0 - (f : ℤ)) = (m : ℚ) / 10 ^ f := by
  unfold Stream.scale
  split
  · rename_i h
    have : f = 0 := by omega
    subst this
    simp
  · rw [Rat.mkRat_eq_div]
    have : (-(0 - (f : ℤ))).toNat = f := by omega
    rw [this]
    simp

theorem scale_stops {little : Bool} {nS r : List UInt8} (h : Scale little nS) : Stops isspace (nS ++ r) ∧ nS ++ r ≠ [] := by
  have key : ∀ i r : List UInt8, Digits i → i ≠ [] → Stops isspace ((if little then [ch '-'] else []) ++ (i ++ r)) ∧
      (if little then [ch '-'] else []) ++ (i ++ r) ≠ [] := by
    intro i r hi h0
    cases little with
    | true => exact ⟨stops_cons.mpr (by decide), by simp⟩
    | false =>
      cases i with
      | nil => exact absurd rfl h0
      | cons b l => exact ⟨stops_cons.mpr (digit_not_space (hi.isdigit b (by simp))), by simp⟩
  cases h with
  | int hs hi h0 _ _ => subst hs; rw [List.append_assoc]; exact key _ _ hi h0
  | @frac sign i f hs hi h0 _ _ _ =>
    subst hs
    have e : (if little then [ch '-'] else []) ++ (i ++ ch '.' :: f) ++ r = (if little then [ch '-'] else []) ++ (i ++ (ch '.' :: f ++ r)) := by simp
    rw [e]; exact key _ _ hi h0

theorem scanFloat_eq {little : Bool} {nS r : List UInt8} {sp : UInt8} {p : ℕ} {k : Kind} (h : Scale little nS) (hsp : Blank [sp]) :
    ∃ q, (⟨nS ++ (sp :: r), p, k⟩ : Stream).scanFloat = some (.ok (.fin little q), ⟨sp :: r, p + nS.length, k⟩) ∧
      (Fl.fin little q).lt (.fin false 0) = little := by
  obtain ⟨hst, hne⟩ := scale_stops (r := sp :: r) h
  have hs := hsp.isspace sp (by simp)
  suffices hrun : ∃ st a v, floatRun (nS ++ (sp :: r)) .start ⟨false, 0, 0, false, 0, false⟩ 0 = (st, a, nS.length) ∧ st.finite = true ∧
      floatValue st a = some (binary32.deliver little (if little then -v else v)) ∧ (2 : ℚ) ^ (-126 : ℤ) ≤ v ∧ v < 2 ^ 127 by
    obtain ⟨st, a, v, h1, h2, h3, h4, h5⟩ := hrun
    obtain ⟨q, h6, h7⟩ := deliver_sign (little := little) h4 h5
    refine ⟨q, ?_, h7⟩
    unfold scanFloat
    rw [skipSpace_none hst]
    simp only
    cases hl : nS ++ (sp :: r) with
    | nil => exact absurd hl hne
    | cons b l =>
      simp only
      rw [← hl, h1]
      simp only
      rw [h3, h6]
      simp only
      rw [if_neg (by simp [Fl.isfinite]), advance_append]
  cases h with
  | @int sign i hs' hi h0 hv1 hv2 =>
    subst hs'
    obtain ⟨st, hw, hr⟩ := floatRun_start (little := little) (r := sp :: r) hi h0
    rw [floatRun_stop hs (Or.inl hw)] at hr
    refine ⟨st, _, (value i : ℚ), by rw [List.append_assoc]; exact hr, by rcases hw with rfl | rfl <;> rfl, ?_, ?_, by exact_mod_cast hv2⟩
    · rcases hw with rfl | rfl <;> simp [floatValue, scale_zero]
    · refine le_trans (?_ : (2 : ℚ) ^ (-126 : ℤ) ≤ 1) (by exact_mod_cast hv1)
      exact zpow_le_one_of_nonpos₀ (by norm_num) (by norm_num)
  | @frac sign i f hs' hi h0 hf hv1 hv2 =>
    subst hs'
    obtain ⟨st, hw, hr⟩ := floatRun_start (little := little) (r := ch '.' :: (f ++ (sp :: r))) hi h0
    have hdot : ∀ a, floatStep st a (ch '.') = some (.frac, a) := by
      intro a
      rcases hw with rfl | rfl
      · simp [floatStep, show isdigit (ch '.') = false by decide]
      · simp [floatStep, show isdigit (ch '.') = false by decide]
    rw [floatRun, hdot] at hr
    simp only at hr
    rw [floatRun_frac hf, floatRun_stop hs (Or.inr rfl)] at hr
    refine ⟨.frac, ⟨little, value i * 10 ^ f.length + value f, 0 + f.length, false, 0, false⟩, (value (i ++ f) : ℚ) / 10 ^ f.length, ?_, rfl, ?_, hv1, hv2⟩
    · have e : (if little then [ch '-'] else []) ++ (i ++ ch '.' :: f) ++ (sp :: r) = (if little then [ch '-'] else []) ++ (i ++ ch '.' :: (f ++ (sp :: r))) := by simp
      rw [e, hr]
      simp only [List.length_append, List.length_cons, Prod.mk.injEq, true_and]
      omega
    · simp only [floatValue]
      rw [value_append]
      simp only [Bool.false_eq_true, if_false, Nat.cast_zero, Nat.zero_add]
      rw [scale_neg]

/-! ## The header -/

theorem pfmFields_eq {c : Cfg} {W H : ℕ} {colour little : Bool} {head : List UInt8} (h : PfmHead W H colour little head) (hW : W ≤ c.sizeMax)
    (hH : H ≤ c.sizeMax) : ∃ t, head = ch 'P' :: t ∧ ∀ (rest : List UInt8) (p : ℕ) (k : Kind), ∃ q,
      pfmFields c ⟨t ++ rest, p, k⟩ = some (some (if colour then ch 'F' else ch 'f', W, H, .fin little q), ⟨rest, p + t.length, k⟩) ∧
        (Fl.fin little q).lt (.fin false 0) = little := by
  cases h with
  | @mk s0 s1 nW s2 nH s3 nS lines sp h0 h0' hl h1 hnW h2 h2' hnH h3 h3' hnS hsp =>
    refine ⟨_, rfl, fun rest p k => ?_⟩
    set fm := if colour then ch 'F' else ch 'f' with hfm
    simp only [List.append_assoc, List.cons_append, List.nil_append]
    set R := nW ++ (s2 ++ (nH ++ (s3 ++ (nS ++ (sp :: rest))))) with hR
    have ns := numeral_stops (r := s2 ++ (nH ++ (s3 ++ (nS ++ (sp :: rest))))) hnW
    obtain ⟨s1', q, hb, hq, hpre⟩ := preamble (p := p + 1) (k := k) h0 hl h1 ns.1 ns.2 (by simp [hnW.1])
    obtain ⟨v, hsc, hv⟩ := scanFloat_eq (p := q + s1'.length + nW.length + s2.length + nH.length + s3.length) (k := k) (r := rest) hnS hsp
    have hnum : pfmNumbers c ⟨s1' ++ R, q, k⟩ = some (some (W, H, .fin little v),
        ⟨sp :: rest, q + s1'.length + nW.length + s2.length + nH.length + s3.length + nS.length, k⟩) := by
      unfold pfmNumbers
      rw [hR, scanUnsigned_eq hb hnW hW (blank_stops h2 h2').1]
      simp only [Option.bind_eq_bind, Option.bind_some]
      rw [skipSpace_eq h2 (numeral_stops hnH).1]
      have := scanUnsigned_eq (a := []) (p := q + s1'.length + nW.length + s2.length) (k := k) (wide := true) (by simp [Blank]) hnH hH
        (blank_stops (r := nS ++ (sp :: rest)) h3 h3').1
      simp only [List.nil_append, List.length_nil, Nat.add_zero] at this
      rw [this]
      simp only [Option.bind_some]
      rw [skipSpace_eq h3 (scale_stops hnS).1, hsc]
      rfl
    refine ⟨v, ?_, hv⟩
    unfold pfmFields
    have hany : (⟨fm :: (s0 ++ (comments lines ++ (s1 ++ R))), p, k⟩ : Stream).scanAny = (.ok fm, ⟨s0 ++ (comments lines ++ (s1 ++ R)), p + 1, k⟩) := by
      simp [Stream.scanAny, Stream.advance]
    rw [hany]
    simp only
    rw [if_neg (by rw [hfm]; cases colour <;> simp)]
    rw [hpre]
    simp only [Bool.not_true, Bool.false_eq_true, if_false]
    rw [hnum]
    simp only [Option.bind_eq_bind, Option.bind_some]
    rw [spaceNext_eq hsp]
    simp only [if_true]
    have : q + s1'.length + nW.length + s2.length + nH.length + s3.length + nS.length + 1 =
        p + (fm :: (s0 ++ (comments lines ++ (s1 ++ (nW ++ (s2 ++ (nH ++ (s3 ++ (nS ++ [sp]))))))))).length := by
      simp only [List.length_append, List.length_cons, List.length_nil]
      omega
    rw [this]
    rfl

/-! ## Pixel data -/

theorem bigEndian_fold {v : ℕ} (h : v < 2 ^ 32) : (bigEndian v).foldl (fun n d => 256 * n + d.toNat) 0 = v := by
  simp [bigEndian]
  omega

theorem native_encode {c : Cfg} {little swap : Bool} {v : ℕ} (h : v < 2 ^ 32) (hs : swap = !(little == c.littleEndian)) :
    nativeFloat c (if swap then (encode little v).reverse else encode little v) = floatOfBits v := by
  unfold nativeFloat encode
  subst hs
  cases little <;> cases hc : c.littleEndian <;> simp [bigEndian_fold h]

theorem encode_length (little : Bool) (v : ℕ) : (encode little v).length = 4 := by unfold encode; split <;> rfl

/-- Numbers per pixel. -/
def comps (colour : Bool) : ℕ := if colour then 3 else 1

theorem pixel_length {colour little : Bool} {p : Pixel} (h : p.Ok colour) : (p.bytes little).length = 4 * comps colour := by
  cases p with
  | gray v => rw [h.1]; simp [Pixel.bytes, encode_length, comps]
  | colour r g b => rw [h.1]; simp [Pixel.bytes, encode_length, comps]

theorem encode_cases (little : Bool) (v : ℕ) : ∃ a b c d, encode little v = [a, b, c, d] := by
  unfold encode bigEndian
  split
  · exact ⟨_, _, _, _, rfl⟩
  · exact ⟨_, _, _, _, rfl⟩

theorem chunks_encode (little : Bool) (v : ℕ) (r : List UInt8) : chunks4 (encode little v ++ r) = encode little v :: chunks4 r := by
  obtain ⟨a, b, c, d, h⟩ := encode_cases little v
  rw [h]; rfl

theorem pfmVal_eq {c : Cfg} {colour little swap : Bool} {p : Pixel} {r : List UInt8} (h : p.Ok colour) (hs : swap = !(little == c.littleEndian)) :
    pfmVal c swap (comps colour) (p.bytes little ++ r) = p.sample := by
  unfold pfmVal
  rw [← pixel_length (little := little) h, List.take_left]
  have hnil : chunks4 [] = [] := rfl
  cases p with
  | gray v =>
    have := chunks_encode little v []
    rw [List.append_nil, hnil] at this
    simp only [Pixel.bytes, this, List.map_cons, List.map_nil, native_encode h.2 hs]
    rfl
  | colour r g b =>
    have e : encode little r ++ encode little g ++ encode little b = encode little r ++ (encode little g ++ (encode little b ++ [])) := by simp
    simp only [Pixel.bytes, e, chunks_encode, hnil, List.map_cons, List.map_nil, native_encode h.2.1 hs, native_encode h.2.2.1 hs,
      native_encode h.2.2.2 hs]
    rfl

theorem pfmVals_eq {c : Cfg} {colour little swap : Bool} {row : List Pixel} {r : List UInt8} (h : ∀ p ∈ row, p.Ok colour)
    (hs : swap = !(little == c.littleEndian)) :
    pfmVals c swap (comps colour) row.length ((row.map (Pixel.bytes little)).flatten ++ r) = row.map Pixel.sample := by
  induction row with
  | nil => rfl
  | cons p row ih =>
    simp only [List.map_cons, List.flatten_cons, List.length_cons, pfmVals, List.append_assoc]
    rw [pfmVal_eq (h p (by simp)) hs, ← pixel_length (little := little) (h p (by simp)), List.drop_left, ← ih (fun q hq => h q (by simp [hq]))]

theorem row_length {colour little : Bool} {row : List Pixel} (h : ∀ p ∈ row, p.Ok colour) :
    ((row.map (Pixel.bytes little)).flatten).length = 4 * comps colour * row.length := by
  induction row with
  | nil => rfl
  | cons p row ih =>
    simp only [List.map_cons, List.flatten_cons, List.length_append, List.length_cons]
    rw [pixel_length (h p (by simp)), ih (fun q hq => h q (by simp [hq]))]
    ring

theorem pfmFrame_eq {c : Cfg} {colour little swap : Bool} {W : ℕ} {rows : List (List Pixel)} {r : List UInt8}
    (h : ∀ row ∈ rows, row.length = W ∧ ∀ p ∈ row, p.Ok colour) (hs : swap = !(little == c.littleEndian)) :
    pfmFrame c swap (comps colour) W rows.length ((rows.map (fun r => (r.map (Pixel.bytes little)).flatten)).flatten ++ r) =
      (rows.reverse.map (fun r => r.map Pixel.sample)).flatten := by
  induction rows with
  | nil => rfl
  | cons row rows ih =>
    obtain ⟨h1, h2⟩ := h row (by simp)
    simp only [List.map_cons, List.flatten_cons, List.length_cons, pfmFrame, List.append_assoc]
    rw [← h1, ← row_length (little := little) h2, List.drop_left, pfmVals_eq h2 hs, h1, ih (fun q hq => h q (by simp [hq]))]
    simp

theorem data_length {W H : ℕ} {i : PfmImage} (h : i.Ok W H) : i.data.length = 4 * comps i.colour * W * H := by
  obtain ⟨h1, h2⟩ := h
  unfold PfmImage.data
  have key : ∀ rows : List (List Pixel), (∀ row ∈ rows, row.length = W ∧ ∀ p ∈ row, p.Ok i.colour) →
      ((rows.map (fun r => (r.map (Pixel.bytes i.little)).flatten)).flatten).length = 4 * comps i.colour * W * rows.length := by
    intro rows h
    induction rows with
    | nil => rfl
    | cons row rows ih =>
      obtain ⟨h1, h2⟩ := h row (by simp)
      simp only [List.map_cons, List.flatten_cons, List.length_append, List.length_cons]
      rw [row_length h2, ih (fun q hq => h q (by simp [hq])), h1]
      ring
  rw [key _ (fun row hr => h2 row (List.mem_reverse.mp hr)), List.length_reverse, h1]

theorem image_eq {c : Cfg} {W H : ℕ} {i : PfmImage} {r : List UInt8} (h : i.Ok W H) :
    pfmFrame c (!(i.little == c.littleEndian)) (comps i.colour) W H (i.data ++ r) = i.samples := by
  obtain ⟨h1, h2⟩ := h
  have := pfmFrame_eq (c := c) (rows := i.rows.reverse) (r := r) (W := W) (fun row hr => h2 row (List.mem_reverse.mp hr))
    (rfl : (!(i.little == c.littleEndian)) = _)
  rw [List.length_reverse, h1, List.reverse_reverse] at this
  exact this

/-! ## Reading and seeking -/

/-- The letter for a kind of image. -/
def letter (colour : Bool) : UInt8 := if colour then ch 'F' else ch 'f'

theorem comps_letter (colour : Bool) : pfmComps (letter colour) = comps colour := by cases colour <;> decide

theorem pfmReadHeader_eq {c : Cfg} {W H p : ℕ} {k : Kind} {colour little : Bool} {head r : List UInt8} {x : PfmCtx} (h : PfmHead W H colour little head)
    (hW : W ≤ c.sizeMax) (hH : H ≤ c.sizeMax) (hx : x.headerConsumed = false) (hr : x.f.st = ⟨head ++ r, p, k⟩) :
    ∃ scale, pfmReadHeader c x W H = some (true, RDEOK, { x with scale := scale, format := letter colour, f := { x.f with st := ⟨r, p + head.length, k⟩ } }) ∧
      scale.lt (.fin false 0) = little := by
  obtain ⟨t, rfl, ht⟩ := pfmFields_eq (c := c) h hW hH
  obtain ⟨q, h1, h2⟩ := ht r (p + 1) k
  refine ⟨.fin little q, ?_, h2⟩
  unfold pfmReadHeader
  rw [hx, hr]
  simp only [Bool.false_eq_true, if_false, List.cons_append, Stream.fgetc, Stream.advance, List.drop_succ_cons, List.drop_zero, ne_eq, not_true_eq_false]
  rw [h1]
  simp only [Option.bind_eq_bind, Option.bind_some, not_true_eq_false, or_self, if_false]
  have : p + 1 + t.length = p + (ch 'P' :: t).length := by rw [List.length_cons]; omega
  rw [this]
  rfl

theorem pfm_step_data {s : Sys} {W H p : ℕ} {k : Kind} {i : PfmImage} {x x1 : PfmCtx} {b : List UInt8} (h1 : pfmReadHeader s.cfg x W H = some (true, RDEOK, x1))
    (h2 : x1.f.st = ⟨i.data ++ b, p, k⟩) (h3 : x1.format = letter i.colour) (h4 : x1.scale.lt (.fin false 0) = i.little) (hi : i.Ok W H) :
    Ctx.step s W H (.pfm x) = some (some i.samples, RDEOK,
      .pfm { x1 with headerConsumed := false, f := { x1.f with st := ⟨b, p + i.data.length, k⟩ } }) := by
  simp only [Ctx.step]
  rw [h1]
  simp only [if_true]
  rw [h3, comps_letter, ← data_length hi, h2, if_pos (by simp), advance_append]
  unfold sameOrder
  rw [h4, image_eq hi]

/-- What the context of a PFM has before it. -/
def Ready (W H : ℕ) (x : PfmCtx) (is : List PfmImage) : Prop :=
  (x.headerConsumed = false ∧ PfmFile W H is x.f.st.rest) ∨
  (x.headerConsumed = true ∧ ∃ i is' b, is = i :: is' ∧ i.Ok W H ∧ x.f.st.rest = i.data ++ b ∧ PfmFile W H is' b ∧ x.format = letter i.colour ∧
    x.scale.lt (.fin false 0) = i.little)

/-- The header of the next image, read now or before. -/
theorem Ready.header {c : Cfg} {W H : ℕ} {x : PfmCtx} {i : PfmImage} {is : List PfmImage} (h : Ready W H x (i :: is)) (hW : W ≤ c.sizeMax)
    (hH : H ≤ c.sizeMax) : ∃ scale b p, pfmReadHeader c x W H = 
      some (true, RDEOK, { x with scale := scale, format := letter i.colour, f := { x.f with st := ⟨i.data ++ b, p, x.f.st.kind⟩ } }) ∧ scale.lt (.fin false 0) = i.little ∧ i.Ok W H ∧ PfmFile W H is b ∧
      p + (i.data ++ b).length = x.f.st.pos + x.f.st.rest.length := by
  rcases h with ⟨h1, h2⟩ | ⟨h1, i', is', b, h2, h3, h4, h5, h6, h7⟩
  · generalize hr : x.f.st.rest = r at h2
    cases h2 with
    | @cons _ _ a b h2 h3 =>
      cases h2 with
      | @mk head hi hh =>
        have hs : x.f.st = ⟨head ++ (i.data ++ b), x.f.st.pos, x.f.st.kind⟩ := by
          rw [← List.append_assoc, ← hr]
        obtain ⟨scale, h4, h5⟩ := pfmReadHeader_eq (c := c) hh hW hH h1 hs
        refine ⟨scale, b, _, h4, h5, hi, h3, ?_⟩
        simp only [List.length_append]
        omega
  · cases h2
    refine ⟨x.scale, b, x.f.st.pos, ?_, h7, h3, h5, by rw [h4]⟩
    unfold pfmReadHeader
    rw [if_pos h1, ← h6, ← h4]

theorem Ready.done {c : Cfg} {W H : ℕ} {x : PfmCtx} (h : Ready W H x []) (hb : x.f.st.kind.broken = false) : pfmReadHeader c x W H = some (false, RDEOK, x) := by
  rcases h with ⟨h1, h2⟩ | ⟨_, _, _, _, h, _⟩
  · generalize hr : x.f.st.rest = r at h2
    cases h2
    have hs : x.f.st = ⟨[], x.f.st.pos, x.f.st.kind⟩ := by rw [← hr]
    unfold pfmReadHeader
    rw [h1, hs]
    simp only [Bool.false_eq_true, if_false, Stream.fgetc, Stream.feof, hb, Bool.not_false, if_true]
    rw [← hs, ← h1]
  · cases h

theorem fskip_eq {s : Sys} {a r : List UInt8} {p n : ℕ} {k : Kind} {buf : Option (List UInt8)} (hn : n = a.length)
    (h1 : buf = none → k.seekable = true ∧ p + n ≤ s.cfg.longMax) (h2 : ∀ b, buf = some b → n ≤ b.length) :
    ∃ buf', fskip s ⟨a ++ r, p, k⟩ n buf = some (RDEOK, ⟨r, p + n, k⟩, buf') ∧ (buf' = none → buf = none) ∧ ∀ b, buf' = some b → n ≤ b.length := by
  subst hn
  cases buf with
  | none =>
    obtain ⟨h3, h4⟩ := h1 rfl
    refine ⟨none, ?_, fun _ => rfl, by simp⟩
    simp only [fskip, Stream.fseek]
    rw [if_neg (by omega), if_pos ⟨h3, h4⟩, advance_append]
    rfl
  | some b =>
    have h3 := h2 b rfl
    refine ⟨some (store b a), ?_, by simp, ?_⟩
    · simp only [fskip]
      rw [if_neg (by omega), fread_eq, Nat.min_eq_left (by simp), advance_append]
      simp
    · intro b' hb
      cases hb
      simp [store]

theorem pfmSkip_eq {s : Sys} {W H n : ℕ} {colour : Bool} (hW : W ≤ s.cfg.sizeMax) (hH : H ≤ s.cfg.sizeMax) (hn : n = 4 * comps colour * W * H)
    (todo : ℕ) : ∀ {i : ℕ} {x : PfmCtx} {is : List PfmImage} {buf : Option (List UInt8)} {calls : List ℕ}, Ready W H x is →
    (∀ i ∈ is, i.colour = colour) → x.format = letter colour → (x.headerConsumed = true → 0 < todo) →
    (x.f.st.seekable = true → x.f.st.pos + x.f.st.rest.length ≤ s.cfg.longMax) → (buf = none → x.f.st.seekable = true) →
    (∀ b, buf = some b → n ≤ b.length) → x.f.st.kind.broken = false →
    ∃ x', pfmSkip s W H n true todo i x buf calls =
        some (decide (todo ≤ is.length), RDEOK, calls ++ (List.range (min todo is.length)).map (· + (i + 1)), x') ∧
      PfmFile W H (is.drop todo) x'.f.st.rest ∧ (∃ st scale hc, x' = { x with scale := scale, headerConsumed := hc, f := { x.f with st := st } }) ∧
      (x'.f.st.seekable = true → x'.f.st.pos + x'.f.st.rest.length ≤ s.cfg.longMax) ∧ x'.f.st.kind.broken = false := by
  induction todo with
  | zero =>
    intro i x is buf calls hr hu hf hc hp hb hb' hk
    rcases hr with ⟨h1, h2⟩ | ⟨h1, _⟩
    · exact ⟨x, by simp [pfmSkip], by simpa using h2, ⟨x.f.st, x.scale, x.headerConsumed, rfl⟩, hp, hk⟩
    · exact absurd (hc h1) (by simp)
  | succ m ih =>
    intro i x is buf calls hr hu hf hc hp hb hb' hk
    cases is with
    | nil =>
      refine ⟨x, ?_, ?_, ⟨x.f.st, x.scale, x.headerConsumed, rfl⟩, hp, hk⟩
      · unfold pfmSkip
        rw [hr.done hk]
        simp
      · rcases hr with ⟨h1, h2⟩ | ⟨_, _, _, _, h, _⟩
        · simpa using h2
        · cases h
    | cons im is =>
      obtain ⟨scale, b, p, h1, h2, h3, h4, h5⟩ := hr.header (c := s.cfg) hW hH
      have hcol : im.colour = colour := hu im (by simp)
      have hdl := data_length h3
      rw [hcol] at hdl
      rw [List.length_append] at h5
      obtain ⟨buf', h6, h7, h8⟩ := fskip_eq (s := s) (a := im.data) (r := b) (p := p) (n := n) (k := x.f.st.kind) (buf := buf) (by rw [hn, hdl])
        (fun h => ⟨hb h, by have := hp (hb h); rw [hn, ← hdl]; omega⟩) hb'
      obtain ⟨x', h9, h10, ⟨st', sc', hc', h11⟩, h12⟩ := ih (i := i + 1)
        (x := { x with headerConsumed := false, scale := scale, format := letter im.colour, f := { x.f with st := ⟨b, p + n, x.f.st.kind⟩ } }) (is := is) (buf := buf') (calls := calls ++ [i + 1]) (Or.inl ⟨rfl, h4⟩)
        (fun j hj => hu j (by simp [hj])) (by rw [hcol]) (by simp)
        (fun h => by have := hp h; simp only; rw [hn, ← hdl]; omega) (fun h => hb (h7 h)) h8 hk
      refine ⟨x', ?_, by simpa using h10, ⟨st', sc', hc', by rw [h11, hf, hcol]⟩, h12⟩
      unfold pfmSkip
      rw [h1]
      simp only [Option.bind_eq_bind, Option.bind_some, Bool.not_true, Bool.false_eq_true, if_false]
      rw [h6]
      simp only [Option.bind_some]
      rw [if_neg (show ¬ (RDEOK ≠ 0) by decide)]
      simp only [if_true]
      rw [h9]
      simp only [List.length_cons, Nat.add_le_add_iff_right, Nat.add_min_add_right, List.range_succ_eq_map, List.map_cons, List.map_map,
        List.append_assoc, List.singleton_append, Nat.zero_add]
      congr 6
      apply List.map_congr_left
      intro j _
      simp; omega

/-- A PFM context behaves as if `frames` were to come. -/
def PfmR (s : Sys) (W H : ℕ) (c : Ctx) (frames : List (List Fl)) (ops : List IOp) : Prop :=
  ∃ st scale format hc is, c = .pfm ⟨0, ⟨none, st⟩, scale, format, hc⟩ ∧ frames = is.map PfmImage.samples ∧
    (st.seekable = true → st.pos + st.rest.length ≤ s.cfg.longMax) ∧ st.kind.broken = false ∧ Ready W H ⟨0, ⟨none, st⟩, scale, format, hc⟩ is ∧
    ((∀ op ∈ ops, op = .read) ∨ (hc = true → ops.head? ≠ some (.seek 0)) ∧ ∃ colour, format = letter colour ∧ (∀ i ∈ is, i.colour = colour) ∧
      4 * comps colour * W * H ≤ s.cfg.sizeMax)

theorem pfmBytes_eq {c : Cfg} {x : PfmCtx} {W H : ℕ} {colour : Bool} (hf : x.format = letter colour) (h : 4 * comps colour * W * H ≤ c.sizeMax) :
    pfmBytes c x W H = 4 * comps colour * W * H := by
  unfold pfmBytes
  rw [hf]
  cases colour with
  | false =>
    have e : 4 * comps false * W * H = W * H * 4 := by unfold comps; simp; ring
    rw [e] at h ⊢
    rw [if_neg (by decide), sz_eq (c := c) (n := W * H) (by omega), sz_eq h]
  | true =>
    have e : 4 * comps true * W * H = W * H * 3 * 4 := by unfold comps; simp; ring
    rw [e] at h ⊢
    rw [if_pos (by decide), sz_eq (c := c) (n := W * H) (by omega), sz_eq (c := c) (n := W * H * 3) (by omega), sz_eq h]

theorem pfm_sim {s : Sys} {W H : ℕ} (hW : W ≤ s.cfg.sizeMax) (hH : H ≤ s.cfg.sizeMax) : Sim s W H (PfmR s W H) := by
  constructor
  · rintro _ ops ⟨st, scale, format, hc, is, rfl, hl, hm, hk, hr, ho⟩
    obtain rfl : is = [] := List.map_eq_nil_iff.mp hl.symm
    refine ⟨_, ?_, st, scale, format, hc, [], rfl, rfl, hm, hk, hr, ?_⟩
    · simp only [Ctx.step]
      rw [hr.done hk]
      rfl
    · rcases ho with ho | ⟨_, colour, h1, h2, h3⟩
      · exact Or.inl (fun op h => ho op (by simp [h]))
      · refine Or.inr ⟨fun h => ?_, colour, h1, h2, h3⟩
        rcases hr with ⟨h', _⟩ | ⟨_, _, _, _, h', _⟩
        · exact absurd (h.symm.trans h') (by simp)
        · cases h'
  · rintro _ f fs ops ⟨st, scale, format, hc, is, rfl, hl, hm, hk, hr, ho⟩
    cases is with
    | nil => cases hl
    | cons i is =>
      cases hl
      obtain ⟨sc', b, p, h1, h2, h3, h4, h5⟩ := hr.header (c := s.cfg) hW hH
      refine ⟨_, pfm_step_data h1 rfl rfl h2 h3, _, _, _, _, is, rfl, rfl, fun h => ?_, hk, Or.inl ⟨rfl, h4⟩, ?_⟩
      · have := hm h
        simp only [List.length_append] at h5 ⊢
        omega
      · rcases ho with ho | ⟨_, colour, h1, h2, h3⟩
        · exact Or.inl (fun op h => ho op (by simp [h]))
        · exact Or.inr ⟨by simp, colour, by rw [h2 i (by simp)], fun j hj => h2 j (by simp [hj]), h3⟩
  · rintro _ fs n ops ⟨st, scale, format, hc, is, rfl, rfl, hm, hk, hr, ho⟩
    rcases ho with ho | ⟨h0, colour, h1, h2, h3⟩
    · exact absurd (ho (.seek n) (by simp)) (by simp)
    · have hb := pfmBytes_eq (c := s.cfg) (x := ⟨0, ⟨none, st⟩, scale, format, hc⟩) h1 h3
      obtain ⟨x', h4, h5, ⟨st', sc', hc', h6⟩, h7, h7'⟩ := pfmSkip_eq hW hH hb n (i := 0) (calls := [])
        (buf := pfmSkipBuf s.cfg ⟨0, ⟨none, st⟩, scale, format, hc⟩ W H) hr h2 h1
        (fun h => by rcases n with _ | n; exact absurd rfl (h0 h); omega) hm
        (by
          unfold pfmSkipBuf
          split
          · rename_i hs
            unfold seekMode at hs
            simp only [Bool.and_eq_true] at hs
            exact fun _ => hs.2.1
          · simp)
        (by
          unfold pfmSkipBuf
          split
          · simp
          · intro b hb'
            cases hb'
            simp) hk
      subst h6
      refine ⟨_, ?_, st', sc', format, false, is.drop n, rfl, by rw [List.map_drop], h7, h7', Or.inl ⟨rfl, h5⟩, Or.inr ⟨by simp, colour, h1, ?_, h3⟩⟩
      · simp only [Ctx.skip, h4]
        simp
      · exact fun j hj => h2 j (List.mem_of_mem_drop hj)

/-- One image at least, all readable. -/
theorem pfm_open {s : Sys} {fs : Fs} {name : List UInt8} {k : Kind} {W H : ℕ} {i : PfmImage} {is : List PfmImage} {file r : List UInt8}
    (hh : fs.Holds name (file ++ r, k)) (hf : PfmFile W H (i :: is) file) (hW : W ≤ s.cfg.sizeMax) (hH : H ≤ s.cfg.sizeMax) :
    ∃ b p scale, Determined (pfmReader s fs) name (some (some (.pfm ⟨0, ⟨none, ⟨i.data ++ (b ++ r), p, k⟩⟩, scale, letter i.colour, true⟩), W, H, RDEOK)) ∧
      scale.lt (.fin false 0) = i.little ∧ i.Ok W H ∧ PfmFile W H is b ∧ p + (i.data ++ b).length = file.length := by
  cases hf with
  | @cons _ _ a b h1 h2 =>
    cases h1 with
    | @mk head hi hp =>
      obtain ⟨t, rfl, ht⟩ := pfmFields_eq (c := s.cfg) hp hW hH
      obtain ⟨q, h3, h4⟩ := ht (i.data ++ (b ++ r)) 1 k
      have hd := (pfm_determined (s := s) name).1 _ k hh
      have e : pfmHeader s.cfg ⟨ch 'P' :: t ++ i.data ++ b ++ r, 0, k⟩ =
          some (some (letter i.colour, W, H, .fin i.little q), ⟨i.data ++ (b ++ r), 1 + t.length, k⟩) := by
        unfold pfmHeader
        simp only [List.cons_append, List.append_assoc, Stream.scanChar, if_true, Stream.advance, List.drop_succ_cons, List.drop_zero]
        rw [Nat.zero_add, h3]
        rfl
      rw [e] at hd
      refine ⟨b, _, _, hd, h4, hi, h2, ?_⟩
      simp only [List.length_append, List.length_cons]
      omega

/-- A PFM file plays its images. -/
theorem pfm_plays {s : Sys} {io : Io} {name file : List UInt8} {k : Kind} {W H : ℕ} {images : List PfmImage} {m : M Opened}
    (hu : Uses s io name (cs "pfm") m) (ho : io.omitPfm = false) (hh : io.fs.Holds name (file, k)) (hf : PfmFile W H images file)
    (h0 : images ≠ []) (hw : Within s.cfg W H) (hk : k.seekable = true → file.length ≤ s.cfg.longMax) (hb : k.broken = false) :
    Plays m W H (images.map PfmImage.samples) (fun ops => (∀ op ∈ ops, op = .read) ∨ ops.head? ≠ some (.seek 0) ∧
      ∃ colour, (∀ i ∈ images, i.colour = colour) ∧ 4 * comps colour * W * H ≤ s.cfg.sizeMax) := by
  rw [uses_pfm hu ho]
  obtain ⟨hW, hH⟩ := Within.le_size hw
  cases images with
  | nil => exact absurd rfl h0
  | cons i is =>
    rw [← List.append_nil file] at hh
    obtain ⟨b, p, scale, hd, h1, h2, h3, h4⟩ := pfm_open (s := s) hh hf hW hH
    simp only [List.append_nil] at hd
    refine Builtin.plays Builtin.pfm (pfm_sim hW hH) hd hw (fun ops hops => ?_)
    refine ⟨_, scale, letter i.colour, true, i :: is, rfl, rfl, fun h => by have := hk h; simp only; omega, hb,
      Or.inr ⟨rfl, i, is, b, rfl, h2, rfl, h3, rfl, h1⟩, ?_⟩
    rcases hops with h | ⟨h, colour, h5, h6⟩
    · exact Or.inl h
    · exact Or.inr ⟨fun _ => h, colour, by rw [h5 i (by simp)], h5, h6⟩

/-! ## Streams that stop in the middle of an image -/

theorem pfm_step_cut {s : Sys} {W H : ℕ} {colour : Bool} {x x1 : PfmCtx} (h1 : pfmReadHeader s.cfg x W H = some (true, RDEOK, x1))
    (h3 : x1.format = letter colour) (hl : x1.f.st.rest.length < 4 * comps colour * W * H) :
    ∃ x', Ctx.step s W H (.pfm x) = some (none, RDEINVAL, x') := by
  simp only [Ctx.step]
  rw [h1]
  simp only [if_true]
  rw [h3, comps_letter, if_neg (by omega)]
  exact ⟨_, rfl⟩

theorem pfm_frames {s : Sys} {W H : ℕ} {colour little : Bool} {head data : List UInt8} (hW : W ≤ s.cfg.sizeMax) (hH : H ≤ s.cfg.sizeMax)
    (hp : 0 < W * H) (hh : PfmHead W H colour little head) (hl : data.length < 4 * comps colour * W * H) {is : List PfmImage} {a : List UInt8}
    (ha : PfmFile W H is a) : ∀ x : PfmCtx, x.headerConsumed = false → x.f.st.rest = a ++ (head ++ data) →
      Ctx.frames s W H (.pfm x) = (is.map PfmImage.samples, some RDEINVAL) := by
  induction ha with
  | nil =>
    intro x hc hr
    have hs : x.f.st = ⟨head ++ data, x.f.st.pos, x.f.st.kind⟩ := by rw [List.nil_append] at hr; rw [← hr]
    obtain ⟨scale, h4, _⟩ := pfmReadHeader_eq (c := s.cfg) hh hW hH hc hs
    obtain ⟨x', h5⟩ := pfm_step_cut (s := s) (colour := colour) h4 rfl hl
    exact Ctx.frames_stop h5
  | @cons i is a b h1 _ ih =>
    intro x hc hr
    cases h1 with
    | @mk head' hi hh' =>
      have hs : x.f.st = ⟨head' ++ (i.data ++ (b ++ (head ++ data))), x.f.st.pos, x.f.st.kind⟩ := by
        simp only [List.append_assoc] at hr; rw [← hr]
      obtain ⟨scale, h4, h5⟩ := pfmReadHeader_eq (c := s.cfg) hh' hW hH hc hs
      rw [Ctx.frames_next hp (pfm_step_data h4 rfl rfl h5 hi), ih _ rfl rfl]
      rfl

/-- Images, and then one whose data is incomplete. -/
theorem pfm_cut {s : Sys} {io : Io} {name a head data : List UInt8} {k : Kind} {colour little : Bool} {W H : ℕ} {images : List PfmImage} {m : M Opened}
    (hu : Uses s io name (cs "pfm") m) (ho : io.omitPfm = false) (hh : io.fs.Holds name (a ++ (head ++ data), k)) (hf : PfmFile W H images a)
    (hp : PfmHead W H colour little head) (hl : data.length < 4 * comps colour * W * H) (hw : Within s.cfg W H) :
    Yields m W H (images.map PfmImage.samples) RDEINVAL := by
  rw [uses_pfm hu ho]
  obtain ⟨hW, hH⟩ := Within.le_size hw
  have hpos : 0 < W * H := Nat.mul_pos hw.1 hw.2.1
  cases images with
  | nil =>
    cases hf
    obtain ⟨t, rfl, ht⟩ := pfmFields_eq (c := s.cfg) hp hW hH
    obtain ⟨q, h3, h4⟩ := ht data 1 k
    have hd := (pfm_determined (s := s) name).1 _ k hh
    have e : pfmHeader s.cfg ⟨[] ++ (ch 'P' :: t ++ data), 0, k⟩ =
        some (some (letter colour, W, H, .fin little q), ⟨data, 1 + t.length, k⟩) := by
      unfold pfmHeader
      simp only [List.nil_append, List.cons_append, Stream.scanChar, if_true, Stream.advance, List.drop_succ_cons, List.drop_zero]
      rw [Nat.zero_add, h3]
      rfl
    rw [e] at hd
    refine Builtin.pfm.yields hd hw ?_
    obtain ⟨x', h5⟩ := pfm_step_cut (s := s) (W := W) (H := H) (colour := colour)
      (x := ⟨0, ⟨none, ⟨data, 1 + t.length, k⟩⟩, .fin little q, letter colour, true⟩) (by unfold pfmReadHeader; rw [if_pos rfl]) rfl hl
    exact Ctx.frames_stop h5
  | cons i is =>
    obtain ⟨b, p, scale, hd, h1, h2, h3, h4⟩ := pfm_open (s := s) hh hf hW hH
    refine Builtin.pfm.yields hd hw ?_
    rw [Ctx.frames_next hpos (pfm_step_data (x := ⟨0, ⟨none, ⟨i.data ++ (b ++ (head ++ data)), p, k⟩⟩, scale, letter i.colour, true⟩)
      (by unfold pfmReadHeader; rw [if_pos rfl]) rfl rfl h1 h2), pfm_frames hW hH hpos hp hl h3 _ rfl rfl]
    rfl

end Verif
