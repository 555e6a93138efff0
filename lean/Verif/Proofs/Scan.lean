import Verif.Proofs.Seek
import Verif.Spec.Formats

/-! Scanning well-formed text. -/

namespace Verif

open Spec

variable {r a : List UInt8} {p : ℕ} {k : Kind}

/-- What follows does not start with a byte for which `P` holds. -/
def Stops (P : UInt8 → Bool) (r : List UInt8) : Prop := ∀ b, r.head? = some b → P b = false

theorem stops_cons {P : UInt8 → Bool} {b : UInt8} : Stops P (b :: r) ↔ P b = false := by simp [Stops]

theorem stops_append {P : UInt8 → Bool} (ha : a ≠ []) (h : Stops P a) : Stops P (a ++ r) := by
  cases a with
  | nil => exact absurd rfl ha
  | cons b l => exact stops_cons.mpr (stops_cons.mp h)

theorem takeWhile_stops {P : UInt8 → Bool} (ha : ∀ b ∈ a, P b = true) (hr : Stops P r) : (a ++ r).takeWhile P = a := by
  rw [List.takeWhile_append_of_pos ha]
  cases r with
  | nil => simp
  | cons b l => rw [List.takeWhile_cons_of_neg (by simp [stops_cons.mp hr])]; simp

theorem isspace_iff (b : UInt8) : isspace b = true ↔ (b.toNat = 32 ∨ 9 ≤ b.toNat ∧ b.toNat ≤ 13) := by
  unfold isspace
  rw [Bool.or_eq_true, beq_iff_eq, Bool.and_eq_true, decide_eq_true_eq, decide_eq_true_eq, UInt8.le_iff_toNat_le, UInt8.le_iff_toNat_le]
  constructor
  · rintro (rfl | h)
    · left; rfl
    · right; exact h
  · rintro (h | h)
    · left
      apply UInt8.toNat_inj.mp
      rw [h]; rfl
    · right; exact h

theorem isdigit_iff (b : UInt8) : isdigit b = true ↔ (48 ≤ b.toNat ∧ b.toNat ≤ 57) := by
  unfold isdigit
  rw [Bool.and_eq_true, decide_eq_true_eq, decide_eq_true_eq, UInt8.le_iff_toNat_le, UInt8.le_iff_toNat_le]
  have h1 : (ch '0').toNat = 48 := by decide
  have h2 : (ch '9').toNat = 57 := by decide
  rw [h1, h2]

theorem Spec.Blank.isspace (h : Blank a) : ∀ b ∈ a, isspace b = true := fun b hb => (isspace_iff b).mpr (h b hb)
theorem Spec.Digits.isdigit (h : Digits a) : ∀ b ∈ a, isdigit b = true := fun b hb => (isdigit_iff b).mpr (h b hb)

theorem digit_not_space {b : UInt8} (h : isdigit b = true) : isspace b = false := by
  rw [isdigit_iff] at h
  rw [Bool.eq_false_iff, ne_eq, isspace_iff]
  omega

theorem space_not_digit {b : UInt8} (h : isspace b = true) : isdigit b = false := by
  rw [isspace_iff] at h
  rw [Bool.eq_false_iff, ne_eq, isdigit_iff]
  omega

theorem advance_append : (⟨a ++ r, p, k⟩ : Stream).advance a.length = ⟨r, p + a.length, k⟩ := by simp [Stream.advance]

theorem skipSpace_eq (ha : Blank a) (hr : Stops isspace r) : (⟨a ++ r, p, k⟩ : Stream).skipSpace = ⟨r, p + a.length, k⟩ := by
  unfold Stream.skipSpace
  rw [takeWhile_stops ha.isspace hr, advance_append]

theorem skipSpace_none (hr : Stops isspace r) : (⟨r, p, k⟩ : Stream).skipSpace = ⟨r, p, k⟩ :=
  skipSpace_eq (a := []) (by simp [Blank]) hr

theorem decimal_eq (l : List UInt8) : Stream.decimal l = value l := by
  unfold Stream.decimal value
  induction l using List.reverseRecOn with
  | nil => rfl
  | append_singleton l b ih =>
    rw [List.foldl_append, ih]
    simp [Nat.ofDigits_cons]
    ring

theorem value_append (l m : List UInt8) : value (l ++ m) = value l * 10 ^ m.length + value m := by
  unfold value
  rw [List.reverse_append, List.map_append, Nat.ofDigits_append]
  simp
  ring

theorem scanUnsigned_eq {ds : List UInt8} {n m : ℕ} {wide : Bool} (ha : Blank a) (hd : Numeral n ds) (hm : n ≤ m) (hr : Stops isdigit r) :
    (⟨a ++ (ds ++ r), p, k⟩ : Stream).scanUnsigned m wide = some (.ok n, ⟨r, p + a.length + ds.length, k⟩) := by
  obtain ⟨h1, h2, h3⟩ := hd
  cases ds with
  | nil => exact absurd rfl h1
  | cons b l =>
    have hb := h2.isdigit b (by simp)
    unfold Stream.scanUnsigned
    rw [skipSpace_eq ha (by rw [List.cons_append]; exact stops_cons.mpr (digit_not_space hb))]
    have hn : (b == ch '-') = false := by
      rw [Bool.eq_false_iff]; intro h; rw [beq_iff_eq] at h; subst h; revert hb; decide
    have hp : (b == ch '+') = false := by
      rw [Bool.eq_false_iff]; intro h; rw [beq_iff_eq] at h; subst h; revert hb; decide
    simp only [List.cons_append, hn, hp, Bool.or_self, Bool.false_eq_true, if_false]
    rw [← List.cons_append, takeWhile_stops h2.isdigit hr, advance_append, if_neg (by simp), decimal_eq, h3, if_neg (by omega)]

theorem numeral_stops {n : ℕ} {ds : List UInt8} (h : Numeral n ds) : Stops isspace (ds ++ r) ∧ Stops (· == ch '#') (ds ++ r) := by
  obtain ⟨h1, h2, _⟩ := h
  cases ds with
  | nil => exact absurd rfl h1
  | cons b l =>
    have hb := h2.isdigit b (by simp)
    refine ⟨stops_append (by simp) (stops_cons.mpr (digit_not_space hb)), stops_append (by simp) (stops_cons.mpr ?_)⟩
    rw [Bool.eq_false_iff]
    intro h
    rw [beq_iff_eq] at h; subst h; revert hb; decide

theorem blank_stops (ha : Blank a) (h0 : a ≠ []) : Stops isdigit (a ++ r) ∧ Stops (· == ch '#') (a ++ r) := by
  cases a with
  | nil => exact absurd rfl h0
  | cons b l =>
    have hb := ha.isspace b (by simp)
    refine ⟨stops_append (by simp) (stops_cons.mpr (space_not_digit hb)), stops_append (by simp) (stops_cons.mpr ?_)⟩
    rw [Bool.eq_false_iff]
    intro h
    rw [beq_iff_eq] at h; subst h; revert hb; decide

theorem comments_cons (t : List UInt8) (lines : List (List UInt8)) : comments (t :: lines) = ch '#' :: (t ++ (ch '\n' :: comments lines)) := by
  simp [comments]

theorem skipComments_eq {lines : List (List UInt8)} {fuel : ℕ} (hl : ∀ t ∈ lines, OneLine t) (hr : Stops (· == ch '#') r) (h0 : r ≠ [])
    (hf : lines.length < fuel) :
    skipComments fuel ⟨comments lines ++ r, p, k⟩ = (true, ⟨r, p + (comments lines).length, k⟩) := by
  induction lines generalizing fuel p with
  | nil =>
    cases fuel with
    | zero => omega
    | succ n =>
      cases r with
      | nil => exact absurd rfl h0
      | cons b l =>
        have hb := stops_cons.mp hr
        simp only [beq_eq_false_iff_ne] at hb
        simp [comments, skipComments, Stream.fgetc, Stream.advance, Stream.ungetc, hb]
  | cons t lines ih =>
    cases fuel with
    | zero => omega
    | succ n =>
      have ht : OneLine t := hl t (by simp)
      have e1 : (t ++ (ch '\n' :: (comments lines ++ r))).takeWhile (fun b => b != ch '\n') = t := by
        refine takeWhile_stops ?_ (stops_cons.mpr (by simp))
        intro b hb
        simp only [bne_iff_ne]
        rintro rfl
        exact ht hb
      rw [comments_cons]
      unfold skipComments
      simp only [List.cons_append, List.append_assoc, Stream.fgetc, Stream.advance, List.drop_succ_cons, List.drop_zero, if_true]
      rw [e1, if_pos (by simp)]
      have e2 : (t ++ (ch '\n' :: (comments lines ++ r))).drop (t.length + 1) = comments lines ++ r := by
        simp [List.drop_append]
      rw [e2, ih (fun t h => hl t (List.mem_cons_of_mem _ h)) (by simpa using hf)]
      simp only [List.length_cons, List.length_append, Prod.mk.injEq, Stream.mk.injEq, true_and, and_true]
      omega

theorem comments_length (lines : List (List UInt8)) : lines.length ≤ (comments lines).length := by
  induction lines with
  | nil => simp
  | cons t l ih => rw [comments_cons]; simp; omega

theorem spaceNext_eq {b : UInt8} (h : Blank [b]) : spaceNext ⟨b :: r, p, k⟩ = (true, ⟨r, p + 1, k⟩) := by
  have := h.isspace b (by simp)
  simp [spaceNext, Stream.fgetc, Stream.advance, this]

/-- The white space and the comments between the first line of a netpbm file and the first number. -/
theorem preamble {s0 s1 : List UInt8} {lines : List (List UInt8)} (h0 : Blank s0) (hl : ∀ t ∈ lines, OneLine t) (h1 : Blank s1)
    (hr : Stops isspace r) (hr' : Stops (· == ch '#') r) (hne : r ≠ []) :
    ∃ s1' q, Blank s1' ∧ q + s1'.length = p + s0.length + (comments lines).length + s1.length ∧
      skipComments ((⟨s0 ++ (comments lines ++ (s1 ++ r)), p, k⟩ : Stream).skipSpace.rest.length + 1)
        (⟨s0 ++ (comments lines ++ (s1 ++ r)), p, k⟩ : Stream).skipSpace = (true, ⟨s1' ++ r, q, k⟩) := by
  cases lines with
  | nil =>
    refine ⟨[], p + (s0 ++ s1).length, by simp [Blank], by simp [comments]; omega, ?_⟩
    have e : s0 ++ (comments [] ++ (s1 ++ r)) = (s0 ++ s1) ++ r := by simp [comments]
    have hb : Blank (s0 ++ s1) := fun b hb => (List.mem_append.mp hb).elim (h0 b) (h1 b)
    rw [e, skipSpace_eq hb hr]
    have := skipComments_eq (lines := []) (p := p + (s0 ++ s1).length) (k := k) (fuel := r.length + 1) (by simp) hr' hne (by simp)
    simpa [comments] using this
  | cons t lines =>
    have hs : Stops isspace (comments (t :: lines) ++ (s1 ++ r)) := by
      rw [comments_cons, List.cons_append]
      exact stops_cons.mpr (by decide)
    rw [skipSpace_eq h0 hs]
    have hr2 : Stops (· == ch '#') (s1 ++ r) := by
      cases s1 with
      | nil => exact hr'
      | cons b l => exact (blank_stops h1 (by simp)).2
    refine ⟨s1, p + s0.length + (comments (t :: lines)).length, h1, rfl, ?_⟩
    refine skipComments_eq hl hr2 (by simp [hne]) ?_
    have := comments_length (t :: lines)
    simp only [List.length_append] at this ⊢
    omega

theorem findReader_skip {l1 l2 : List Reader} {r : Reader} {ext : List UInt8} (h1 : ∀ y ∈ l1, y.supportsExt ext = some false)
    (h2 : r.supportsExt ext = some true) : findReader (l1 ++ r :: l2) ext = some (some r) := by
  induction l1 with
  | nil => simp only [List.nil_append, findReader, h2]; rfl
  | cons y l ih =>
    simp only [List.cons_append, findReader, h1 y (by simp), Option.bind_eq_bind, Option.bind_some, Bool.false_eq_true, if_false]
    exact ih (fun z hz => h1 z (List.mem_cons_of_mem _ hz))

theorem uses_of {s : Sys} {io : Io} {name fmt N : List UInt8} {m : M Opened} {r : Reader} {l1 : List (List UInt8 × Reader)}
    (hn : ∃ l2, named s io = l1 ++ (N, r) :: l2) (hN : SameText N fmt) (hl : ∀ y ∈ l1, ¬ SameText y.1 fmt)
    (hx : ∀ ext, Plainly s.cfg ext → SameText ext fmt → r.supportsExt ext = some true ∧ ∀ y ∈ l1, y.2.supportsExt ext = some false)
    (h : Uses s io name fmt m) : m = openImage s (some r) name true := by
  obtain ⟨l2, hn⟩ := hn
  have e1 : listImageReaders io = l1.map Prod.fst ++ N :: l2.map Prod.fst := by rw [← named_fst (s := s), hn]; simp
  have e2 : imageReaders s io = l1.map Prod.snd ++ r :: l2.map Prod.snd := by rw [← named_snd, hn]; simp
  cases h with
  | byType he hp ht =>
    obtain ⟨h3, h4⟩ := hx _ hp ht
    unfold resdetOpenImage
    rw [if_neg (by simp)]
    simp only
    rw [extension_spec he, e2, findReader_skip (by
      intro y hy
      obtain ⟨z, hz, rfl⟩ := List.mem_map.mp hy
      exact h4 z hz) h3]
    funext w
    exact M.bind_some rfl
  | byName hp ht =>
    obtain ⟨h1, _⟩ := findName_first hp (names_ascii (io := io) s.cfg) 0
    have h2 := h1 _ _ _ e1 (hN.trans ht.symm) (by
      intro y hy h
      obtain ⟨z, hz, rfl⟩ := List.mem_map.mp hy
      exact hl z hz (h.trans ht))
    unfold resdetOpenImageWithReader
    rw [if_neg (by simp)]
    simp only [h2]
    funext w
    refine (M.bind_some rfl).trans ?_
    have hrd : rd (imageReaders s io) (0 + (l1.map Prod.fst).length) = some r := by
      unfold rd; rw [e2]; simp
    simp only [hrd]
    exact M.bind_some rfl

theorem strieq_iff {s : Sys} {ext : List UInt8} (t : String) (h : ∀ b ∈ cs t, b.toNat < 128) (hp : Plainly s.cfg ext) :
    (SameText ext (cs t) → strieq s.cfg ext (cs t) = some true) ∧ (¬ SameText ext (cs t) → strieq s.cfg ext (cs t) = some false) := by
  obtain ⟨r, h1, h2⟩ := strieq_spec hp (ascii s.cfg t h)
  refine ⟨fun h => by rw [h1, h2.mpr h], fun h => ?_⟩
  rw [h1]
  cases r with
  | false => rfl
  | true => exact absurd (h2.mp rfl) h

theorem differs {t u v : List UInt8} (h : SameText t u) (hd : u.map lower ≠ v.map lower) : ¬ SameText t v := fun h' => hd (h.symm.trans h')

theorem uses_pgm {s : Sys} {io : Io} {name : List UInt8} {m : M Opened} (h : Uses s io name (cs "pgm") m) (ho : io.omitPgm = false) :
    m = openImage s (some (pgmReader s io.fs)) name true := by
  refine uses_of (l1 := []) (N := cs "PGM") ?_ (by unfold SameText; decide) (by simp) ?_ h
  · exact ⟨(named s io).tail, by unfold named; rw [ho]; rfl⟩
  · exact fun ext hp ht => ⟨(strieq_iff "pgm" (by decide) hp).1 ht, by simp⟩

theorem uses_pfm {s : Sys} {io : Io} {name : List UInt8} {m : M Opened} (h : Uses s io name (cs "pfm") m) (ho : io.omitPfm = false) :
    m = openImage s (some (pfmReader s io.fs)) name true := by
  refine uses_of (l1 := if io.omitPgm then [] else [(cs "PGM", pgmReader s io.fs)]) (N := cs "PFM") ?_ (by unfold SameText; decide) ?_ ?_ h
  · unfold named; rw [ho]
    simp only [Bool.false_eq_true, if_false, List.append_assoc, List.cons_append, List.nil_append]
    exact ⟨_, rfl⟩
  · intro y hy
    split at hy
    · cases hy
    · rw [List.mem_singleton.mp hy]; unfold SameText; simp only; decide
  · refine fun ext hp ht => ⟨(strieq_iff "pfm" (by decide) hp).1 ht, fun y hy => ?_⟩
    split at hy
    · cases hy
    · rw [List.mem_singleton.mp hy]
      exact (strieq_iff "pgm" (by decide) hp).2 (differs ht (by decide))

theorem uses_y4m {s : Sys} {io : Io} {name : List UInt8} {m : M Opened} (h : Uses s io name (cs "y4m") m) (ho : io.omitY4m = false) :
    m = openImage s (some (y4mReader s io.fs)) name true := by
  refine uses_of (l1 := (if io.omitPgm then [] else [(cs "PGM", pgmReader s io.fs)]) ++ (if io.omitPfm then [] else [(cs "PFM", pfmReader s io.fs)]))
    (N := cs "Y4M") ?_ (by unfold SameText; decide) ?_ ?_ h
  · unfold named; rw [ho]
    simp only [Bool.false_eq_true, if_false, List.append_assoc, List.cons_append, List.nil_append]
    exact ⟨_, rfl⟩
  · intro y hy
    rcases List.mem_append.mp hy with hy | hy <;> split at hy
    · cases hy
    · rw [List.mem_singleton.mp hy]; unfold SameText; simp only; decide
    · cases hy
    · rw [List.mem_singleton.mp hy]; unfold SameText; simp only; decide
  · refine fun ext hp ht => ⟨(strieq_iff "y4m" (by decide) hp).1 ht, fun y hy => ?_⟩
    rcases List.mem_append.mp hy with hy | hy <;> split at hy
    · cases hy
    · rw [List.mem_singleton.mp hy]
      exact (strieq_iff "pgm" (by decide) hp).2 (differs ht (by decide))
    · cases hy
    · rw [List.mem_singleton.mp hy]
      exact (strieq_iff "pfm" (by decide) hp).2 (differs ht (by decide))

theorem ofNat_eq {n : ℕ} (h : n ≤ 2 ^ 24) : binary32.ofNat n = .fin false n := by
  unfold Fmt.ofNat Fmt.deliver
  split
  · rename_i h0; rw [h0]
  · rw [Fmt.rnd_natCast _ binary32_wf h]
    have h1 : (n : ℚ) < pow2 binary32.emax := by
      refine lt_of_le_of_lt (b := ((2 ^ 24 : ℕ) : ℚ)) (by exact_mod_cast h) ?_
      rw [show binary32.emax = ((128 : ℕ) : ℤ) from rfl, pow2_natCast]
      norm_num
    have h2 : ¬ (pow2 binary32.emax ≤ |(n : ℚ)|) := by
      rw [abs_of_nonneg (by positivity)]; exact not_le.mpr h1
    rw [if_neg h2]
    simp

/-- A quotient of small numbers is the rounded quotient. -/
theorem quotient_eq {v m : ℕ} (hv : v ≤ 2 ^ 24) (hm : m ≤ 2 ^ 24) (h0 : 0 < m) :
    binary32.div (binary32.ofNat v) (binary32.ofNat m) = normal m v := by
  rw [ofNat_eq hv, ofNat_eq hm]
  have hm0 : (m : ℚ) ≠ 0 := by exact_mod_cast h0.ne'
  simp only [Fmt.div, if_neg hm0, Bool.xor_false, normal]
  unfold Fmt.deliver
  split
  · rename_i h; rw [h, Fmt.rnd_zero]
  · have hq : (v : ℚ) / m ≤ ((2 ^ 24 : ℕ) : ℚ) := by
      have : (v : ℚ) / m ≤ v := div_le_self (by positivity) (by exact_mod_cast h0)
      exact this.trans (by exact_mod_cast hv)
    have h1 := Fmt.rnd_le_natCast binary32 binary32_wf (n := 2 ^ 24) le_rfl hq
    have hp : (0 : ℚ) ≤ (v : ℚ) / m := by positivity
    have h3 := Fmt.rnd_nonneg binary32 hp
    have h2 : ¬ (pow2 binary32.emax ≤ |binary32.rnd ((v : ℚ) / m)|) := by
      rw [abs_of_nonneg h3]
      refine not_le.mpr (lt_of_le_of_lt h1 ?_)
      rw [show binary32.emax = ((128 : ℕ) : ℤ) from rfl, pow2_natCast]
      norm_num
    rw [if_neg h2]
    simp [not_lt.mpr hp]

end Verif
