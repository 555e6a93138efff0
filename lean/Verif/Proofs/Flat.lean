import Verif.Proofs.Black
import Verif.Proofs.Order
import Mathlib.Tactic.IntervalCases

/-! # The bundled transform of a picture of one colour

With sides that are products of twos and threes the differences of equal numbers it takes are exactly zero. -/

namespace Verif

open Spec

variable {S : Type}

/-- `G b u`: `u` is a number up to `b`, and its multiples up to `lim` can be computed. -/
structure Evens (A : Arith S) (Z : S → Prop) (G : ℚ → S → Prop) (lim : ℚ) : Prop where
  pos : ∀ {b u}, G b u → 0 ≤ b
  mono : ∀ {b c u}, b ≤ c → G b u → G c u
  same : ∀ {b u}, G b u → Z (A.sub u u)
  two : ∀ {b u}, G b u → 2 * b ≤ lim → G (2 * b) (A.add u u)
  three : ∀ {b u}, G b u → 4 * b ≤ lim → G (4 * b) (A.add u (A.add u u))
  third : ∀ {b u}, G b u → 2 * b ≤ lim → Z (A.sub u (A.halfOf (A.add u u)))
  unit : ∀ {b u}, G b u → b ≤ lim → ∀ n, 0 < n → A.cMul ⟨u, u⟩ (A.twiddle n 0) = ⟨u, u⟩
  load : ∀ {b u}, G b u → b ≤ lim → A.load u = u
  store : ∀ {b u}, G b u → b ≤ lim → ∀ n, 0 < n → A.store (A.sub (A.mul u (A.shift n 0).r) (A.mul A.zero (A.shift n 0).i)) = u

/-- The sum of `p` equal numbers, as the butterflies compute it. -/
def grow (A : Arith S) (p : ℕ) (u : S) : S :=
  match p with
  | 2 => A.add u u
  | 3 => A.add u (A.add u u)
  | 4 => A.add (A.add u u) (A.add u u)
  | _ => u

def amp (A : Arith S) : List (ℕ × ℕ) → S → S
  | [], v => v
  | (p, _) :: rest, v => grow A p (amp A rest v)

/-- A list with `u` at the multiples of `m` and zeros elsewhere. -/
def Comb (Z : S → Prop) (m : ℕ) (u : S) (l : List (Cpx S)) : Prop := ∀ i x, l[i]? = some x → if i % m = 0 then x = ⟨u, u⟩ else Both Z x

/-- A list with `u` at the start and zeros elsewhere. -/
def Peak (Z : S → Prop) (u : S) (l : List (Cpx S)) : Prop := ∀ i x, l[i]? = some x → if i = 0 then x = ⟨u, u⟩ else Both Z x

/-- Between the two: the positions with remainders below `k` are done. -/
def Between (Z : S → Prop) (m k : ℕ) (u u' : S) (n : ℕ) (l : List (Cpx S)) : Prop :=
  l.length = n ∧ ∀ i x, l[i]? = some x → if i % m < k then (if i = 0 then x = ⟨u', u'⟩ else Both Z x) else if i % m = 0 then x = ⟨u, u⟩ else Both Z x

theorem wr_length {α : Type} {l l' : List α} {i : ℕ} {v : α} (h : wr l i v = some l') : l'.length = l.length := by
  unfold wr at h
  split at h
  · cases h
    rw [List.length_set]
  · cases h

theorem Between.step {Z : S → Prop} {m k n : ℕ} {u u' : S} {l l' : List (Cpx S)} (h : Between Z m k u u' n l) (hlen : l'.length = n)
    (hs : ∀ i x, l'[i]? = some x → (i % m = k ∧ if i = 0 then x = ⟨u', u'⟩ else Both Z x) ∨ (i % m ≠ k ∧ l[i]? = some x)) : Between Z m (k + 1) u u' n l' := by
  refine ⟨hlen, fun i x hx => ?_⟩
  rcases hs i x hx with ⟨h1, h2⟩ | ⟨h1, h2⟩
  · rw [if_pos (by omega)]
    exact h2
  · have := h.2 i x h2
    by_cases hk : i % m < k
    · rw [if_pos hk] at this
      rw [if_pos (by omega)]
      exact this
    · rw [if_neg hk] at this
      rw [if_neg (by omega)]
      exact this

theorem Between.old {Z : S → Prop} {m k n j : ℕ} {u u' : S} {l : List (Cpx S)} {x : Cpx S} (h : Between Z m k u u' n l) (hk : k < m) (hx : rd l (k + j * m) = some x) :
    if k = 0 then x = ⟨u, u⟩ else Both Z x := by
  have := h.2 _ x hx
  rw [Nat.add_mul_mod_self_right, Nat.mod_eq_of_lt hk, if_neg (by omega)] at this
  exact this

theorem Between.start {Z : S → Prop} {m n : ℕ} {u u' : S} {l : List (Cpx S)} (h : Comb Z m u l) (hn : l.length = n) : Between Z m 0 u u' n l :=
  ⟨hn, fun i x hx => by rw [if_neg (by omega)]; exact h i x hx⟩

theorem Between.done {Z : S → Prop} {m n : ℕ} {u u' : S} {l : List (Cpx S)} (h : Between Z m m u u' n l) (hm : 0 < m) : Peak Z u' l :=
  fun i x hx => by
    have := h.2 i x hx
    rw [if_pos (Nat.mod_lt _ hm)] at this
    exact this

/-- A position below `p*m` with remainder `k` is one of `k + j*m`. -/
theorem mod_place {i m k p : ℕ} (hm : 0 < m) (h : i < p * m) (hk : i % m = k) : ∃ j < p, i = k + j * m := by
  refine ⟨i / m, Nat.div_lt_of_lt_mul (by rw [Nat.mul_comm]; exact h), ?_⟩
  have := Nat.div_add_mod i m
  rw [Nat.mul_comm (i / m) m]
  omega

section
variable {A : Arith S} {Z W T : S → Prop} {G : ℚ → S → Prop} {lim : ℚ} (H : Zeros A Z W T) (E : Evens A Z G lim) {c : Cfg} {st : FftCfg}
include H E

theorem Evens.tw0 {b : ℚ} {u : S} {t : Cpx S} (hu : G b u) (hb : b ≤ lim) {k : ℕ} (hk : k = 0) (h : twAt A st k = some t) : A.cMul ⟨u, u⟩ t = ⟨u, u⟩ := by
  subst hk
  unfold twAt at h
  split at h
  · cases h
    exact E.unit hu hb _ ‹_›
  · cases h

theorem Evens.bfly2 {fstride m : ℕ} {out out' : List (Cpx S)} {b : ℚ} {u : S} (hm : 0 < m) (hu : G b u) (hb : b ≤ lim)
    (h : kfBfly2 A st fstride m out = some out') (hlen : out.length = 2 * m) (hc : Comb Z m u out) : out'.length = 2 * m ∧ Peak Z (grow A 2 u) out' := by
  unfold kfBfly2 at h
  have key := loop_keeps (fun K l => Between Z m K u (grow A 2 u) (2 * m) l) (Nat.zero_le m) h (Between.start hc hlen) ?_
  · exact ⟨key.1, key.done hm⟩
  intro k l l' _ hk hl hbd
  simp only [Option.bind_eq_bind, Option.bind_eq_some_iff] at hbd
  obtain ⟨f0, e0, f1, e1, t1, e2, l1, e3, e4⟩ := hbd
  have o0 := hl.old (j := 0) hk (by simpa using e0)
  have o1 := hl.old (j := 1) hk (by simpa using e1)
  have hv : (if k = 0 then (bfly2Step A t1 f0 f1).1 = ⟨grow A 2 u, grow A 2 u⟩ else Both Z (bfly2Step A t1 f0 f1).1) ∧ Both Z (bfly2Step A t1 f0 f1).2 := by
    by_cases h0 : k = 0
    · rw [if_pos h0] at o0 o1 ⊢
      subst o0 o1
      unfold bfly2Step
      rw [E.tw0 H hu hb (by rw [h0, Nat.zero_mul]) e2]
      exact ⟨rfl, E.same hu, E.same hu⟩
    · rw [if_neg h0] at o0 o1 ⊢
      have m1 := H.cMul (H.both o1) (H.twAt e2)
      exact ⟨H.cAdd o0 m1, H.cSub o0 m1⟩
  refine hl.step (by rw [wr_length e4, wr_length e3, hl.1]) fun i x hx => ?_
  have hi : i < 2 * m := by rw [← hl.1, ← wr_length e3, ← wr_length e4]; exact (List.getElem?_eq_some_iff.mp hx).1
  rcases wr_get e4 hx with ⟨rfl, rfl⟩ | ⟨n0, hx⟩
  · exact .inl ⟨Nat.mod_eq_of_lt hk, hv.1⟩
  rcases wr_get e3 hx with ⟨rfl, rfl⟩ | ⟨n1, hx⟩
  · exact .inl ⟨by rw [Nat.add_mod_right, Nat.mod_eq_of_lt hk], by rw [if_neg (by omega)]; exact hv.2⟩
  · refine .inr ⟨fun hmod => ?_, hx⟩
    obtain ⟨j, hj, rfl⟩ := mod_place hm hi hmod
    interval_cases j <;> omega

theorem Evens.bfly3 {fstride m : ℕ} {out out' : List (Cpx S)} {b : ℚ} {u : S} (hm : 0 < m) (hu : G b u) (hb : 2 * b ≤ lim)
    (h : kfBfly3 A st fstride m out = some out') (hlen : out.length = 3 * m) (hc : Comb Z m u out) : out'.length = 3 * m ∧ Peak Z (grow A 3 u) out' := by
  have hb' : b ≤ lim := by linarith [E.pos hu]
  unfold kfBfly3 at h
  simp only [Option.bind_eq_bind, Option.bind_eq_some_iff] at h
  obtain ⟨ep, e, h⟩ := h
  have te := H.twAt e
  have key := loop_keeps (fun K l => Between Z m K u (grow A 3 u) (3 * m) l) (Nat.zero_le m) h (Between.start hc hlen) ?_
  · exact ⟨key.1, key.done hm⟩
  intro k l l' _ hk hl hbd
  simp only [Option.bind_eq_some_iff] at hbd
  obtain ⟨f0, e0, f1, e1, f2, e2, t1, u1, t2, u2, l1, v1, l2, v2, v3⟩ := hbd
  have o0 := hl.old (j := 0) hk (by simpa using e0)
  have o1 := hl.old (j := 1) hk (by simpa using e1)
  have o2 := hl.old (j := 2) hk e2
  have hv : (if k = 0 then (bfly3Step A ep t1 t2 f0 f1 f2).1 = ⟨grow A 3 u, grow A 3 u⟩ else Both Z (bfly3Step A ep t1 t2 f0 f1 f2).1) ∧
      Both Z (bfly3Step A ep t1 t2 f0 f1 f2).2.1 ∧ Both Z (bfly3Step A ep t1 t2 f0 f1 f2).2.2 := by
    by_cases h0 : k = 0
    · rw [if_pos h0] at o0 o1 o2 ⊢
      subst o0 o1 o2
      unfold bfly3Step
      rw [E.tw0 H hu hb' (by rw [h0, Nat.zero_mul]) u1, E.tw0 H hu hb' (by rw [h0, Nat.zero_mul]) u2]
      have g1 := E.third hu hb
      have w1 := H.mulW (H.weak (E.same hu)) te.2
      exact ⟨rfl, ⟨H.sub g1 w1, H.add g1 w1⟩, ⟨H.add g1 w1, H.sub g1 w1⟩⟩
    · rw [if_neg h0] at o0 o1 o2 ⊢
      have s1 := H.cMul (H.both o1) (H.twAt u1)
      have s2 := H.cMul (H.both o2) (H.twAt u2)
      have s3 := H.cAddW s1 s2
      have s0 := H.cSubW s1 s2
      have g1 : Z (A.sub f0.r (A.halfOf (A.cAdd (A.cMul f1 t1) (A.cMul f2 t2)).r)) := H.sub o0.1 (H.mulW s3.1 H.half)
      have g2 : Z (A.sub f0.i (A.halfOf (A.cAdd (A.cMul f1 t1) (A.cMul f2 t2)).i)) := H.sub o0.2 (H.mulW s3.2 H.half)
      have w1 := H.mulW s0.1 te.2
      have w2 := H.mulW s0.2 te.2
      exact ⟨H.cAdd o0 s3, ⟨H.sub g1 w2, H.add g2 w1⟩, ⟨H.add g1 w2, H.sub g2 w1⟩⟩
  refine hl.step (by rw [wr_length v3, wr_length v2, wr_length v1, hl.1]) fun i x hx => ?_
  have hi : i < 3 * m := by rw [← hl.1, ← wr_length v1, ← wr_length v2, ← wr_length v3]; exact (List.getElem?_eq_some_iff.mp hx).1
  rcases wr_get v3 hx with ⟨rfl, rfl⟩ | ⟨n1, hx⟩
  · exact .inl ⟨by rw [Nat.add_mod_right, Nat.mod_eq_of_lt hk], by rw [if_neg (by omega)]; exact hv.2.1⟩
  rcases wr_get v2 hx with ⟨rfl, rfl⟩ | ⟨n2, hx⟩
  · exact .inl ⟨by rw [Nat.add_mul_mod_self_right, Nat.mod_eq_of_lt hk], by rw [if_neg (by omega)]; exact hv.2.2⟩
  rcases wr_get v1 hx with ⟨rfl, rfl⟩ | ⟨n0, hx⟩
  · exact .inl ⟨Nat.mod_eq_of_lt hk, hv.1⟩
  · refine .inr ⟨fun hmod => ?_, hx⟩
    obtain ⟨j, hj, rfl⟩ := mod_place hm hi hmod
    interval_cases j <;> omega

theorem Evens.bfly4 {fstride m : ℕ} {out out' : List (Cpx S)} {b : ℚ} {u : S} (hm : 0 < m) (hu : G b u) (hb : 2 * b ≤ lim)
    (h : kfBfly4 A st fstride m out = some out') (hlen : out.length = 4 * m) (hc : Comb Z m u out) : out'.length = 4 * m ∧ Peak Z (grow A 4 u) out' := by
  have hb' : b ≤ lim := by linarith [E.pos hu]
  unfold kfBfly4 at h
  have key := loop_keeps (fun K l => Between Z m K u (grow A 4 u) (4 * m) l) (Nat.zero_le m) h (Between.start hc hlen) ?_
  · exact ⟨key.1, key.done hm⟩
  intro k l l' _ hk hl hbd
  simp only [Option.bind_eq_bind, Option.bind_eq_some_iff] at hbd
  obtain ⟨f0, e0, f1, e1, f2, e2, f3, e3, t1, u1, t2, u2, t3, u3, l1, v1, l2, v2, l3, v3, v4⟩ := hbd
  have o0 := hl.old (j := 0) hk (by simpa using e0)
  have o1 := hl.old (j := 1) hk (by simpa using e1)
  have o2 := hl.old (j := 2) hk e2
  have o3 := hl.old (j := 3) hk e3
  have hv : (if k = 0 then (bfly4Step A t1 t2 t3 f0 f1 f2 f3).1 = ⟨grow A 4 u, grow A 4 u⟩ else Both Z (bfly4Step A t1 t2 t3 f0 f1 f2 f3).1) ∧
      Both Z (bfly4Step A t1 t2 t3 f0 f1 f2 f3).2.1 ∧ Both Z (bfly4Step A t1 t2 t3 f0 f1 f2 f3).2.2.1 ∧ Both Z (bfly4Step A t1 t2 t3 f0 f1 f2 f3).2.2.2 := by
    by_cases h0 : k = 0
    · rw [if_pos h0] at o0 o1 o2 o3 ⊢
      subst o0 o1 o2 o3
      unfold bfly4Step
      rw [E.tw0 H hu hb' (by rw [h0, Nat.zero_mul]) u1, E.tw0 H hu hb' (by rw [h0, Nat.zero_mul]) u2, E.tw0 H hu hb' (by rw [h0, Nat.zero_mul]) u3]
      have z := E.same hu
      have z2 := E.same (E.two hu hb)
      have w := H.weak z
      exact ⟨rfl, ⟨H.add z w, H.sub z w⟩, ⟨z2, z2⟩, ⟨H.sub z w, H.add z w⟩⟩
    · rw [if_neg h0] at o0 o1 o2 o3 ⊢
      have s0 := H.cMul (H.both o1) (H.twAt u1)
      have s1 := H.cMul (H.both o2) (H.twAt u2)
      have s2 := H.cMul (H.both o3) (H.twAt u3)
      have s5 := H.cSub o0 s1
      have g0 := H.cAdd o0 s1
      have s3 := H.cAddW s0 s2
      have s4 := H.cSubW s0 s2
      exact ⟨H.cAdd g0 s3, ⟨H.add s5.1 s4.2, H.sub s5.2 s4.1⟩, H.cSub g0 s3, ⟨H.sub s5.1 s4.2, H.add s5.2 s4.1⟩⟩
  refine hl.step (by rw [wr_length v4, wr_length v3, wr_length v2, wr_length v1, hl.1]) fun i x hx => ?_
  have hi : i < 4 * m := by rw [← hl.1, ← wr_length v1, ← wr_length v2, ← wr_length v3, ← wr_length v4]; exact (List.getElem?_eq_some_iff.mp hx).1
  rcases wr_get v4 hx with ⟨rfl, rfl⟩ | ⟨n3, hx⟩
  · exact .inl ⟨by rw [Nat.add_mul_mod_self_right, Nat.mod_eq_of_lt hk], by rw [if_neg (by omega)]; exact hv.2.2.2⟩
  rcases wr_get v3 hx with ⟨rfl, rfl⟩ | ⟨n1, hx⟩
  · exact .inl ⟨by rw [Nat.add_mod_right, Nat.mod_eq_of_lt hk], by rw [if_neg (by omega)]; exact hv.2.1⟩
  rcases wr_get v2 hx with ⟨rfl, rfl⟩ | ⟨n0, hx⟩
  · exact .inl ⟨Nat.mod_eq_of_lt hk, hv.1⟩
  rcases wr_get v1 hx with ⟨rfl, rfl⟩ | ⟨n2, hx⟩
  · exact .inl ⟨by rw [Nat.add_mul_mod_self_right, Nat.mod_eq_of_lt hk], by rw [if_neg (by omega)]; exact hv.2.2.1⟩
  · refine .inr ⟨fun hmod => ?_, hx⟩
    obtain ⟨j, hj, rfl⟩ := mod_place hm hi hmod
    interval_cases j <;> omega

theorem Evens.grown {p : ℕ} {b : ℚ} {u : S} (hp : p = 1 ∨ p = 2 ∨ p = 3 ∨ p = 4) (hu : G b u) (hb : (p : ℚ) ^ 2 * b ≤ lim) : G ((p : ℚ) ^ 2 * b) (grow A p u) := by
  have h0 := E.pos hu
  rcases hp with rfl | rfl | rfl | rfl
  · exact E.mono (by norm_num) hu
  · refine E.mono ?_ (E.two hu ?_) <;> norm_num at hb ⊢ <;> linarith
  · refine E.mono ?_ (E.three hu ?_) <;> norm_num at hb ⊢ <;> linarith
  · norm_num at hb ⊢
    refine E.mono ?_ (E.two (E.two hu ?_) ?_) <;> linarith

theorem Evens.butterfly {fstride m p : ℕ} {out out' : List (Cpx S)} {w w' : World} {b : ℚ} {u : S} (hm : 0 < m) (hp : p = 1 ∧ m = 1 ∨ p = 2 ∨ p = 3 ∨ p = 4)
    (hu : G b u) (hb : (p : ℚ) ^ 2 * b ≤ lim) (h : butterfly A c st fstride m p out w = some (out', w')) (hlen : out.length = p * m) (hc : Comb Z m u out) :
    out'.length = p * m ∧ Peak Z (grow A p u) out' := by
  have h0 := E.pos hu
  rcases hp with ⟨rfl, rfl⟩ | rfl | rfl | rfl
  · have hpk : Peak Z (grow A 1 u) out := by
      intro i x hx
      have hi : i < out.length := (List.getElem?_eq_some_iff.mp hx).1
      have := hc i x hx
      rw [Nat.mod_one, if_pos rfl] at this
      rw [if_pos (by omega)]
      exact this
    have h : kfBflyGeneric A c st fstride 1 1 out w = some (out', w') := h
    unfold kfBflyGeneric at h
    obtain ⟨b, w1, _, h⟩ := M.bind_eq_some.mp h
    cases b with
    | none =>
      cases h
      exact ⟨hlen, hpk⟩
    | some b =>
      obtain ⟨l, w2, h2, h⟩ := M.bind_eq_some.mp h
      obtain ⟨_, w3, _, h⟩ := M.bind_eq_some.mp h
      cases h
      have h2 := lift_some h2
      obtain ⟨x, rfl⟩ := List.length_eq_one_iff.mp (by simpa using hlen : out.length = 1)
      have : genericLoops A c.intMax st fstride 1 1 [x] = some [x] := by
        simp [genericLoops, loop_succ, loop_of_ge, genericAcc, rd, wr, List.range_succ]
      rw [this] at h2
      cases h2
      exact ⟨hlen, hpk⟩
  · norm_num at hb
    exact E.bfly2 H hm hu (by linarith) (lift_some h) hlen hc
  · norm_num at hb
    exact E.bfly3 H hm hu (by linarith) (lift_some h) hlen hc
  · norm_num at hb
    exact E.bfly4 H hm hu (by linarith) (lift_some h) hlen hc

omit H E in
/-- Peaks of length `m` one after the other. -/
theorem comb_append {m n : ℕ} {u : S} {a l : List (Cpx S)} (hm : 0 < m) (ha : a.length = m) (hp : Peak Z u a) (hl : l.length = n * m) (hc : Comb Z m u l) :
    (a ++ l).length = (n + 1) * m ∧ Comb Z m u (a ++ l) := by
  refine ⟨by rw [List.length_append, ha, hl]; ring, fun i x hx => ?_⟩
  by_cases hi : i < m
  · rw [List.getElem?_append_left (by omega)] at hx
    rw [Nat.mod_eq_of_lt hi]
    exact hp i x hx
  · rw [List.getElem?_append_right (by omega), ha] at hx
    have := hc _ x hx
    rwa [← Nat.mod_eq_sub_mod (by omega)] at this

omit H E in
theorem collectM_comb {m : ℕ} {u : S} {f : ℕ → M (List (Cpx S))} (hm : 0 < m) (hf : ∀ k l w w', f k w = some (l, w') → l.length = m ∧ Peak Z u l) :
    ∀ {ks : List ℕ} {l : List (Cpx S)} {w w' : World}, collectM f ks w = some (l, w') → l.length = ks.length * m ∧ Comb Z m u l := by
  intro ks
  induction ks with
  | nil =>
    intro l w w' h
    cases h
    exact ⟨by simp, fun i x hx => by simp at hx⟩
  | cons k ks ih =>
    intro l w w' h
    obtain ⟨a, w1, h1, h⟩ := M.bind_eq_some.mp h
    obtain ⟨b, w2, h2, h⟩ := M.bind_eq_some.mp h
    cases h
    obtain ⟨i1, i2⟩ := ih h2
    obtain ⟨j1, j2⟩ := hf _ _ _ _ h1
    exact comb_append hm j1 j2 i1 i2

theorem Evens.work {f : List (Cpx S)} {v : S} {b : ℚ} (hz : ∀ x ∈ f, x = ⟨v, v⟩) (hv : G b v) {inStride : ℕ} {fs : List (ℕ × ℕ)} :
    ∀ {n : ℕ}, Stages n fs → (∀ x ∈ fs, (x.1 = 1 ∧ x.2 = 1) ∨ x.1 = 2 ∨ x.1 = 3 ∨ x.1 = 4) → (n : ℚ) ^ 2 * b ≤ lim →
      G ((n : ℚ) ^ 2 * b) (amp A fs v) ∧
      ∀ {off fstride : ℕ} {out : List (Cpx S)} {w w' : World}, kfWork A c st f inStride fs off fstride w = some (out, w') → out.length = n ∧ Peak Z (amp A fs v) out := by
  induction fs with
  | nil => exact fun h => h.elim
  | cons pm rest ih =>
    intro n hst hps hb
    obtain ⟨p, m⟩ := pm
    obtain ⟨hp0, hm, rfl, hrest⟩ := hst
    have hp := hps (p, m) (by simp)
    have hb0 := E.pos hv
    have hp1 : (1 : ℚ) ≤ (p : ℚ) ^ 2 := one_le_pow₀ (by exact_mod_cast hp0)
    have hsq : ((p * m : ℕ) : ℚ) ^ 2 * b = (p : ℚ) ^ 2 * ((m : ℚ) ^ 2 * b) := by push_cast; ring
    rw [hsq] at hb ⊢
    have hmb : (m : ℚ) ^ 2 * b ≤ lim := le_trans (le_mul_of_one_le_left (by positivity) hp1) hb
    have hG : G ((m : ℚ) ^ 2 * b) (amp A rest v) := by
      split at hrest
      · subst hrest
        rename_i h1
        subst h1
        simpa [amp] using hv
      · exact (ih hrest (fun x hx => hps x (by simp [hx])) hmb).1
    refine ⟨E.grown H (by omega) hG hb, ?_⟩
    intro off fstride out w w' h
    rw [kfWork] at h
    split at h
    · rename_i h1
      rw [if_pos h1] at hrest
      subst h1 hrest
      obtain ⟨l, w1, h1, h⟩ := M.bind_eq_some.mp h
      have key := collectM_comb (Z := Z) (m := 1) (u := v) Nat.one_pos (fun k l w w' h => by
        have h := lift_some h
        rw [Option.map_eq_some_iff] at h
        obtain ⟨y, hy, rfl⟩ := h
        have := rd_all hy hz
        refine ⟨rfl, fun i x hx => ?_⟩
        have hi := (List.getElem?_eq_some_iff.mp hx).1
        obtain rfl : i = 0 := by simpa using hi
        cases hx
        simpa using this) h1
      rw [List.length_range] at key
      exact E.butterfly H hm hp hG hb h key.1 key.2
    · rename_i h1
      rw [if_neg h1] at hrest
      obtain ⟨l, w1, h1, h⟩ := M.bind_eq_some.mp h
      have key := collectM_comb (Z := Z) hm (fun k l w w' h => (ih hrest (fun x hx => hps x (by simp [hx])) hmb).2 h) h1
      rw [List.length_range] at key
      exact E.butterfly H hm hp hG hb h key.1 key.2

theorem Evens.unpack {tmp F F' : List (Cpx S)} {b : ℚ} {U : S} (h0 : 0 < st.nfft) (hU : G b U) (h : fftrUnpack A st tmp F = some F') (hz : Peak Z U tmp) :
    ∀ i, i ≤ st.nfft → ∀ v, F'[i]? = some v → if i = 0 then v = ⟨A.add U U, A.zero⟩ else Z v.r ∧ W v.i := by
  unfold fftrUnpack at h
  obtain ⟨t, e, h⟩ := Option.bind_eq_some_iff.mp h
  obtain ⟨F1, e1, h⟩ := Option.bind_eq_some_iff.mp h
  obtain ⟨F2, e2, h⟩ := Option.bind_eq_some_iff.mp h
  have ht : t = ⟨U, U⟩ := by simpa using hz 0 t e
  have key := loop_keeps (fun K (l : List (Cpx S)) => ∀ i, i ≤ st.nfft → (i < K ∨ st.nfft - i < K) → ∀ v, l[i]? = some v →
    if i = 0 then v = ⟨A.add U U, A.zero⟩ else Z v.r ∧ W v.i) (by omega) h ?_ ?_
  · exact fun i hi v hv => key i hi (by omega) v hv
  · intro i hi hor v hv
    rcases wr_get e2 hv with ⟨rfl, rfl⟩ | ⟨hne, hv⟩
    · rw [if_neg (by omega), ht]
      exact ⟨E.same hU, H.weak H.zero⟩
    · rcases wr_get e1 hv with ⟨rfl, rfl⟩ | ⟨hne', hv⟩
      · rw [if_pos rfl, ht]
      · omega
  · intro k l l' hk1 hk2 hl hb i hi hor v hv
    obtain ⟨a, ea, hb⟩ := Option.bind_eq_some_iff.mp hb
    obtain ⟨b, eb, hb⟩ := Option.bind_eq_some_iff.mp hb
    obtain ⟨s, es, hb⟩ := Option.bind_eq_some_iff.mp hb
    obtain ⟨l1, u1, u2⟩ := Option.bind_eq_some_iff.mp hb
    have za := hz k a ea
    rw [if_neg (by omega)] at za
    have zb := hz _ b eb
    rw [if_neg (by omega)] at zb
    have hs := H.fftrStep (H.stwAt es) za zb
    rcases wr_get u2 hv with ⟨rfl, rfl⟩ | ⟨hne, hv⟩
    · rw [if_neg (by omega)]
      exact hs.2
    · rcases wr_get u1 hv with ⟨rfl, rfl⟩ | ⟨hne', hv⟩
      · rw [if_neg (by omega)]
        exact hs.1
      · exact hl i hi (by omega) v hv

end


/-! ## Rows and columns -/

theorem place_div {j w i : ℕ} (hw : 0 < w) (hi : i < w) : (j * w + i) / w = j := by
  rw [Nat.mul_comm, Nat.mul_add_div hw, Nat.div_eq_of_lt hi, Nat.add_zero]

theorem place_mod {j w i : ℕ} (hi : i < w) : (j * w + i) % w = i := by
  rw [Nat.mul_comm, Nat.mul_add_mod, Nat.mod_eq_of_lt hi]

/-- What one iteration of the outer loop leaves: the numbers off the row, and on it what the transform of the row gives. -/
theorem dctRow_get {A : Arith S} {c : Cfg} {st : FftCfg} {F0 : List (Cpx S)} {mc sc j length stride dist : ℕ} {f f' : List S} {w w' : World}
    (h : dctRow A c st F0 mc sc j length stride dist f w = some (f', w')) :
    ∃ (row : List S) (F : List (Cpx S)) (w1 w2 : World), (∀ x ∈ row, ∃ i < length, f[j * dist + i * stride]? = some x) ∧
      kissFftr A c st (row.map A.load ++ (row.map A.load).reverse) F0 w1 = some (F, w2) ∧
      ∀ p x, f'[p]? = some x →
        (∃ i < length, p = j * dist + i * stride ∧ ∃ Fi, F[i]? = some Fi ∧ x = A.store (A.sub (A.mul Fi.r (A.shift length i).r) (A.mul Fi.i (A.shift length i).i))) ∨
        ((∀ i < length, p ≠ j * dist + i * stride) ∧ f[p]? = some x) := by
  unfold dctRow at h
  obtain ⟨row, w1, h1, h⟩ := M.bind_eq_some.mp h
  have hrow := lift_some h1
  split at h
  · obtain ⟨F, w2, h2, h⟩ := M.bind_eq_some.mp h
    refine ⟨row, F, w1, w2, ?_, h2, ?_⟩
    · have : ∀ {ks : List ℕ} {l : List S}, ks.mapM (fun i => rd f (j * dist + i * stride)) = some l → ∀ x ∈ l, ∃ i ∈ ks, f[j * dist + i * stride]? = some x := by
        intro ks
        induction ks with
        | nil =>
          intro l h x hx
          cases h
          cases hx
        | cons k ks ih =>
          intro l h x hx
          rw [List.mapM_cons] at h
          obtain ⟨a, e1, h⟩ := Option.bind_eq_some_iff.mp h
          obtain ⟨b, e2, h⟩ := Option.bind_eq_some_iff.mp h
          cases h
          rcases List.mem_cons.mp hx with rfl | hx
          · exact ⟨k, by simp, e1⟩
          · obtain ⟨i, hi, e⟩ := ih e2 x hx
            exact ⟨i, by simp [hi], e⟩
      intro x hx
      obtain ⟨i, hi, e⟩ := this hrow x hx
      exact ⟨i, List.mem_range.mp hi, e⟩
    · have h5 := lift_some h
      unfold dctStore at h5
      refine loop_keeps (fun K (l : List S) => ∀ p x, l[p]? = some x →
        (∃ i < K, p = j * dist + i * stride ∧ ∃ Fi, F[i]? = some Fi ∧ x = A.store (A.sub (A.mul Fi.r (A.shift length i).r) (A.mul Fi.i (A.shift length i).i))) ∨
        ((∀ i < K, p ≠ j * dist + i * stride) ∧ f[p]? = some x)) (Nat.zero_le _) h5 (fun p x hx => .inr ⟨fun i hi => by omega, hx⟩) ?_
      intro k l l' _ hk hl hb p x hx
      obtain ⟨Fi, e, hb⟩ := Option.bind_eq_some_iff.mp hb
      split at hb
      · rcases wr_get hb hx with ⟨rfl, rfl⟩ | ⟨hne, hx⟩
        · exact .inl ⟨k, Nat.lt_succ_self k, rfl, Fi, e, rfl⟩
        · rcases hl p x hx with ⟨i, hi, q⟩ | ⟨q1, q2⟩
          · exact .inl ⟨i, by omega, q⟩
          · refine .inr ⟨fun i hi => ?_, q2⟩
            rcases Nat.lt_succ_iff_lt_or_eq.mp hi with hi | rfl
            · exact q1 i hi
            · exact hne
      · cases hb
  · cases h

section
variable {A : Arith S} {Z W T : S → Prop} {G : ℚ → S → Prop} {lim : ℚ} (H : Zeros A Z W T) {c : Cfg} {st : FftCfg}
include H

/-- A row of zeros stays one. -/
theorem Zeros.oneRow {F0 : List (Cpx S)} {mc sc j length stride dist : ℕ} {f f' : List S} {w w' : World} (h0 : 0 < st.nfft) (hn : st.nfft = length)
    (h : dctRow A c st F0 mc sc j length stride dist f w = some (f', w')) (hz : ∀ i < length, ∀ x, f[j * dist + i * stride]? = some x → Z x) :
    ∀ p x, f'[p]? = some x → (∃ i < length, p = j * dist + i * stride ∧ Z x) ∨ ((∀ i < length, p ≠ j * dist + i * stride) ∧ f[p]? = some x) := by
  obtain ⟨row, F, w1, w2, h1, h2, h3⟩ := dctRow_get h
  have hhalf : ∀ x ∈ row.map A.load, Z x := by
    intro x hx
    obtain ⟨y, hy, rfl⟩ := List.mem_map.mp hx
    obtain ⟨i, hi, e⟩ := h1 y hy
    exact H.load (hz i hi y e)
  unfold kissFftr at h2
  obtain ⟨tmp, w3, h5, h4⟩ := M.bind_eq_some.mp h2
  have htmp := H.work (pairs_all (P := Z) (fun x hx => by
    rcases List.mem_append.mp hx with hx | hx
    · exact hhalf x hx
    · exact hhalf x (List.mem_reverse.mp hx))) h5
  have hF := H.unpack h0 (lift_some h4) htmp
  intro p x hx
  rcases h3 p x hx with ⟨i, hi, rfl, Fi, e, rfl⟩ | q
  · have hFi := hF i (by omega) Fi e
    obtain ⟨s1, s2⟩ := H.shift length i hi
    exact .inl ⟨i, hi, rfl, H.store (H.sub (s1 hFi.1) (H.mulW hFi.2 s2))⟩
  · exact .inr q

variable (E : Evens A Z G lim)
include E

/-- A row of equal numbers gives zeros after its start. -/
theorem Evens.oneRow {F0 : List (Cpx S)} {mc sc j length stride dist : ℕ} {f f' : List S} {w w' : World} {b : ℚ} {v : S} (hst : Stages st.nfft st.factors)
    (hps : ∀ x ∈ st.factors, (x.1 = 1 ∧ x.2 = 1) ∨ x.1 = 2 ∨ x.1 = 3 ∨ x.1 = 4) (hn : st.nfft = length) (hv : G b v) (hb : 2 * ((length : ℚ) ^ 2 * b) ≤ lim)
    (h : dctRow A c st F0 mc sc j length stride dist f w = some (f', w')) (hz : ∀ i < length, ∀ x, f[j * dist + i * stride]? = some x → x = v) :
    ∀ p x, f'[p]? = some x →
      (∃ i < length, p = j * dist + i * stride ∧ if i = 0 then x = A.add (amp A st.factors v) (amp A st.factors v) else Z x) ∨
      ((∀ i < length, p ≠ j * dist + i * stride) ∧ f[p]? = some x) := by
  have h0 := hst.pos
  have hb0 := E.pos hv
  have hl1 : (1 : ℚ) ≤ (length : ℚ) ^ 2 := one_le_pow₀ (by exact_mod_cast (by omega : 1 ≤ length))
  have hlb : b ≤ (length : ℚ) ^ 2 * b := le_mul_of_one_le_left hb0 hl1
  obtain ⟨row, F, w1, w2, h1, h2, h3⟩ := dctRow_get h
  have hhalf : ∀ x ∈ row.map A.load, x = v := by
    intro x hx
    obtain ⟨y, hy, rfl⟩ := List.mem_map.mp hx
    obtain ⟨i, hi, e⟩ := h1 y hy
    rw [hz i hi y e, E.load hv (by linarith)]
  unfold kissFftr at h2
  obtain ⟨tmp, w3, h5, h4⟩ := M.bind_eq_some.mp h2
  have hall : ∀ x ∈ pairs (row.map A.load ++ (row.map A.load).reverse), x = ⟨v, v⟩ := by
    intro x hx
    obtain ⟨a1, a2⟩ := pairs_all (P := fun x => x = v) (fun x hx => by
      rcases List.mem_append.mp hx with hx | hx
      · exact hhalf x hx
      · exact hhalf x (List.mem_reverse.mp hx)) x hx
    obtain ⟨xr, xi⟩ := x
    simp only at a1 a2
    rw [a1, a2]
  obtain ⟨hG, hw⟩ := E.work (c := c) (st := st) (inStride := 1) H hall hv hst hps (by rw [hn]; linarith)
  rw [hn] at hG
  have hF := E.unpack H h0 hG (lift_some h4) (hw h5).2
  intro p x hx
  rcases h3 p x hx with ⟨i, hi, rfl, Fi, e, rfl⟩ | q
  · have hFi := hF i (by omega) Fi e
    refine .inl ⟨i, hi, rfl, ?_⟩
    by_cases hi0 : i = 0
    · rw [if_pos hi0] at hFi ⊢
      subst hFi hi0
      exact E.store (E.two hG hb) hb _ hi
    · rw [if_neg hi0] at hFi ⊢
      obtain ⟨s1, s2⟩ := H.shift length i hi
      exact H.store (H.sub (s1 hFi.1) (H.mulW hFi.2 s2))
  · exact .inr q

omit H E in
theorem fold_keeps {g : List S → ℕ → M (List S)} (P : ℕ → List S → Prop) {f : List S} (h0 : P 0 f) {n : ℕ} :
    ∀ {f' : List S} {w w' : World}, (List.range n).foldlM g f w = some (f', w') →
      (∀ j < n, ∀ f f' w w', P j f → g f j w = some (f', w') → P (j + 1) f') → P n f' := by
  induction n with
  | zero =>
    intro f' w w' h _
    cases h
    exact h0
  | succ n ih =>
    intro f' w w' h hs
    rw [List.range_succ, List.foldlM_append] at h
    obtain ⟨f1, w1, h1, h2⟩ := M.bind_eq_some.mp h
    rw [List.foldlM_cons] at h2
    obtain ⟨f2, w2, h3, h4⟩ := M.bind_eq_some.mp h2
    cases h4
    exact hs n (Nat.lt_succ_self n) _ _ _ _ (ih h1 fun j hj => hs j (by omega)) h3

/-- The transform of equal numbers is zero but for the first coefficient. -/
theorem Evens.transform {p : KissPlan} {w h : ℕ} (g : KissGood c p w h) {junk : Cpx S} {f r : List S} {wd wd' : World} {b : ℚ} {v : S}
    (hps0 : ∀ x ∈ g.cfg0.2.factors, (x.1 = 1 ∧ x.2 = 1) ∨ x.1 = 2 ∨ x.1 = 3 ∨ x.1 = 4)
    (hps1 : ∀ x ∈ g.cfg1.2.factors, (x.1 = 1 ∧ x.2 = 1) ∨ x.1 = 2 ∨ x.1 = 3 ∨ x.1 = 4) (hv : G b v) (hb : 4 * ((w : ℚ) * h) ^ 2 * b ≤ lim)
    (hr : kissTransform A c junk p f wd = some (r, wd')) (hz : ∀ x ∈ f, x = v) :
    ∃ D, G (4 * ((w : ℚ) * h) ^ 2 * b) D ∧ ∀ i < w * h, ∀ x, r[i]? = some x → if i = 0 then x = D else Z x := by
  have hr := kissTransform_eq g hr
  unfold transformOf at hr
  obtain ⟨f1, w1, h1, h2⟩ := M.bind_eq_some.mp hr
  have w0 : 0 < w := by rw [← g.n0]; exact g.stages0.pos
  have h0 : 0 < h := by rw [← g.n1]; exact g.stages1.pos
  have hb0 := E.pos hv
  have hh1 : (1 : ℚ) ≤ (h : ℚ) ^ 2 := one_le_pow₀ (by exact_mod_cast h0)
  have hexp : 4 * ((w : ℚ) * h) ^ 2 * b = 2 * ((h : ℚ) ^ 2 * (2 * ((w : ℚ) ^ 2 * b))) := by ring
  rw [hexp] at hb ⊢
  have hc0 : 0 ≤ 2 * ((w : ℚ) ^ 2 * b) := by positivity
  have hle : 2 * ((w : ℚ) ^ 2 * b) ≤ (h : ℚ) ^ 2 * (2 * ((w : ℚ) ^ 2 * b)) := le_mul_of_one_le_left hc0 hh1
  have hb1 : 2 * ((w : ℚ) ^ 2 * b) ≤ lim := by linarith
  have hD1 : G (2 * ((w : ℚ) ^ 2 * b)) (A.add (amp A g.cfg0.2.factors v) (amp A g.cfg0.2.factors v)) := by
    have := (E.work (c := c) (st := g.cfg0.2) (f := []) (inStride := 1) H (by simp) hv g.stages0 hps0 (by rw [g.n0]; linarith)).1
    rw [g.n0] at this
    exact E.two this hb1
  set D1 := A.add (amp A g.cfg0.2.factors v) (amp A g.cfg0.2.factors v) with eD1
  have hD2 : G (2 * ((h : ℚ) ^ 2 * (2 * ((w : ℚ) ^ 2 * b)))) (A.add (amp A g.cfg1.2.factors D1) (amp A g.cfg1.2.factors D1)) := by
    have := (E.work (c := c) (st := g.cfg1.2) (f := []) (inStride := 1) H (by simp) hD1 g.stages1 hps1 (by rw [g.n1]; linarith)).1
    rw [g.n1] at this
    exact E.two this hb
  refine ⟨_, hD2, ?_⟩
  set D2 := A.add (amp A g.cfg1.2.factors D1) (amp A g.cfg1.2.factors D1) with eD2
  have rowsDone := fold_keeps (fun j (l : List S) => ∀ p x, l[p]? = some x → if p / w < j then (if p % w = 0 then x = D1 else Z x) else x = v)
    (fun p x hx => by rw [if_neg (Nat.not_lt_zero _)]; exact hz x (List.mem_of_getElem? hx)) h1 (fun j hj l l' wd wd' hl hd p x hx => by
      have key := E.oneRow H g.stages0 hps0 g.n0 hv hb1 hd (fun i hi x hx => by
        have := hl _ x hx
        rw [Nat.mul_one, place_div w0 hi] at this
        simpa using this) p x hx
      rcases key with ⟨i, hi, rfl, q⟩ | ⟨q1, q2⟩
      · rw [Nat.mul_one, place_div w0 hi, place_mod hi, if_pos (Nat.lt_succ_self j)]
        exact q
      · have hne : p / w ≠ j := by
          rintro rfl
          refine q1 (p % w) (Nat.mod_lt _ w0) ?_
          have := Nat.div_add_mod p w
          rw [Nat.mul_one, Nat.mul_comm (p / w) w]
          exact this.symm
        have := hl p x q2
        by_cases hlt : p / w < j
        · rw [if_pos hlt] at this
          rw [if_pos (by omega)]
          exact this
        · rw [if_neg hlt] at this
          rw [if_neg (by omega)]
          exact this)
  have colsDone := fold_keeps (fun j (l : List S) => ∀ p < w * h, ∀ x, l[p]? = some x → if p % w < j then (if p = 0 then x = D2 else Z x) else if p % w = 0 then x = D1 else Z x)
    (fun p hp x hx => by
      rw [if_neg (by omega)]
      have := rowsDone p x hx
      rwa [if_pos (Nat.div_lt_of_lt_mul hp)] at this) h2 (fun j hj l l' wd wd' hl hd p hp x hx => by
      have hold : ∀ i < h, ∀ x, l[j * 1 + i * w]? = some x → if j = 0 then x = D1 else Z x := by
        intro i hi x hx
        have hlt : j * 1 + i * w < w * h := by nlinarith
        have := hl _ hlt x hx
        rw [Nat.add_mul_mod_self_right, Nat.mul_one, Nat.mod_eq_of_lt hj, if_neg (by omega)] at this
        exact this
      have key : (∃ i < h, p = j * 1 + i * w ∧ if p = 0 then x = D2 else Z x) ∨ ((∀ i < h, p ≠ j * 1 + i * w) ∧ l[p]? = some x) := by
        by_cases hj0 : j = 0
        · rcases E.oneRow H g.stages1 hps1 g.n1 hD1 hb hd (fun i hi x hx => by have := hold i hi x hx; rwa [if_pos hj0] at this) p x hx with ⟨i, hi, e, q⟩ | q
          · refine .inl ⟨i, hi, e, ?_⟩
            by_cases hi0 : i = 0
            · rw [if_pos hi0] at q
              rw [if_pos (by rw [e, hi0, hj0]; simp)]
              exact q
            · rw [if_neg hi0] at q
              rw [if_neg (by rw [e, hj0]; simp; omega)]
              exact q
          · exact .inr q
        · rcases H.oneRow (by rw [g.n1]; exact h0) g.n1 hd (fun i hi x hx => by have := hold i hi x hx; rwa [if_neg hj0] at this) p x hx with ⟨i, hi, e, q⟩ | q
          · exact .inl ⟨i, hi, e, by rw [if_neg (by omega)]; exact q⟩
          · exact .inr q
      rcases key with ⟨i, hi, e, q⟩ | ⟨q1, q2⟩
      · have : p % w = j := by rw [e, Nat.add_mul_mod_self_right, Nat.mul_one, Nat.mod_eq_of_lt hj]
        rw [if_pos (by omega)]
        exact q
      · have hne : p % w ≠ j := by
          rintro rfl
          refine q1 (p / w) (Nat.div_lt_of_lt_mul hp) ?_
          have := Nat.div_add_mod p w
          rw [Nat.mul_one, Nat.mul_comm (p / w) w]
          omega
        have := hl p hp x q2
        by_cases hlt : p % w < j
        · rw [if_pos hlt] at this
          rw [if_pos (by omega)]
          exact this
        · rw [if_neg hlt] at this
          rw [if_neg (by omega)]
          exact this)
  intro i hi x hx
  have := colsDone i hi x hx
  rwa [if_pos (Nat.mod_lt _ w0)] at this

end

/-! ## The floating point numbers -/

/-- A number of the format between zero and `b`. -/
def Small (F : Fmt) (b : ℚ) (u : Fl) : Prop := ∃ q, u = .fin false q ∧ F.rnd q = q ∧ 0 ≤ q ∧ q ≤ b

theorem pow2_prev_lt (e : ℤ) : pow2 (e - 1) < pow2 e := by
  rw [pow2_eq, pow2_eq]
  exact zpow_lt_zpow_right₀ (by norm_num) (by omega)

/-- Exact results below the limit. -/
theorem deliver_exact {F : Fmt} {q : ℚ} (h0 : 0 ≤ q) (h1 : F.rnd q = q) (h2 : q ≤ pow2 (F.emax - 1)) : F.deliver false q = .fin false q := by
  rw [deliver_nn F h0 (by rw [h1]; linarith [pow2_prev_lt F.emax]), h1]

theorem flat_evens {s : Sys} (hF : s.cfg.kiss.WF) (hsame : s.cfg.coeff = s.cfg.kiss) (hu : UnitTables s.env) :
    Evens s.arith (fun x => x = .fin false 0) (Small s.cfg.kiss) (pow2 (s.cfg.kiss.emax - 1)) where
  pos := by
    rintro b _ ⟨q, rfl, -, h0, hb⟩
    exact le_trans h0 hb
  mono := by
    rintro b c _ hbc ⟨q, rfl, h1, h0, hb⟩
    exact ⟨q, rfl, h1, h0, le_trans hb hbc⟩
  same := by
    rintro b _ ⟨q, rfl, h1, h0, hb⟩
    simp [Sys.arith, flArith, Fmt.sub, Fl.neg, Fmt.add, deliver_zero]
  two := by
    rintro b _ ⟨q, rfl, h1, h0, hb⟩ hl
    refine ⟨q + q, ?_, rnd_twice hF h0 h1, by linarith, by linarith⟩
    simp only [Sys.arith, flArith, Fmt.add, Bool.and_self]
    exact deliver_exact (by linarith) (rnd_twice hF h0 h1) (by linarith)
  three := by
    rintro b _ ⟨q, rfl, h1, h0, hb⟩ hl
    have r2 := rnd_twice hF h0 h1
    have r4 := rnd_twice hF (by linarith : 0 ≤ q + q) r2
    have hle : s.cfg.kiss.rnd (q + (q + q)) ≤ 4 * q := by
      have := s.cfg.kiss.rnd_mono hF.p_pos (by linarith : q + (q + q) ≤ q + q + (q + q))
      rw [r4] at this
      linarith
    have hge : 0 ≤ s.cfg.kiss.rnd (q + (q + q)) := by
      have := s.cfg.kiss.rnd_mono hF.p_pos (by linarith : 0 ≤ q + (q + q))
      rwa [s.cfg.kiss.rnd_zero] at this
    refine ⟨s.cfg.kiss.rnd (q + (q + q)), ?_, s.cfg.kiss.rnd_idem hF.p_pos _, hge, by linarith⟩
    simp only [Sys.arith, flArith, Fmt.add, Bool.and_self]
    rw [deliver_exact (by linarith) r2 (by linarith)]
    simp only [Bool.and_self]
    exact deliver_nn _ (by linarith) (by linarith [pow2_prev_lt s.cfg.kiss.emax])
  third := by
    rintro b _ ⟨q, rfl, h1, h0, hb⟩ hl
    have r2 := rnd_twice hF h0 h1
    simp only [Arith.halfOf, Sys.arith, flArith, Fmt.add, Bool.and_self]
    rw [deliver_exact (by linarith) r2 (by linarith)]
    simp only [Fmt.mul, Bool.xor_self]
    rw [show (q + q) * (1 / 2) = q by ring, deliver_exact h0 h1 (by linarith)]
    simp [Fmt.sub, Fl.neg, Fmt.add, deliver_zero]
  unit := by
    rintro b _ ⟨q, rfl, h1, h0, hb⟩ hl n hn
    obtain ⟨e1, z, e2⟩ := hu.tw n hn
    have e : s.arith.twiddle n 0 = ⟨.fin false 1, .fin z 0⟩ := by
      show s.env.twiddle n 0 = _
      rw [← e1, ← e2]
    rw [e]
    have hq := deliver_exact h0 h1 (le_trans hb hl)
    have hq' : ∀ b', s.cfg.kiss.deliver b' q = .fin (b' && decide (q = 0)) q := by
      intro b'
      rcases h0.eq_or_lt with rfl | hpos
      · simp [deliver_zero]
      · rw [show s.cfg.kiss.deliver b' q = s.cfg.kiss.deliver false q by simp [Fmt.deliver, hpos.ne'], hq]
        simp [hpos.ne']
    cases z <;> simp [Arith.cMul, Sys.arith, flArith, Fmt.mul, Fmt.sub, Fl.neg, Fmt.add, deliver_zero, hq', hq]
  load := by
    rintro b _ ⟨q, rfl, h1, h0, hb⟩ hl
    exact deliver_exact h0 h1 (le_trans hb hl)
  store := by
    rintro b _ ⟨q, rfl, h1, h0, hb⟩ hl n hn
    obtain ⟨e1, z, e2⟩ := hu.shift n hn
    have hr : (s.arith.shift n 0).r = .fin false 1 := e1
    have hi : (s.arith.shift n 0).i = .fin z 0 := e2
    have hq := deliver_exact h0 h1 (le_trans hb hl)
    rw [hr, hi]
    cases z <;> simp [Sys.arith, flArith, Fmt.mul, Fmt.sub, Fl.neg, Fmt.add, deliver_zero, hq, hsame, Fmt.conv]

/-! ## Scores of a spectrum with one coefficient -/

section
variable {s : Sys} {g : ℕ → ℕ → Fl} {n len range x : ℕ}

theorem magHit_right_zero (hc : s.cfg.coeff.WF) (hq : s.cfg.coeff.qmin ≤ 1 - (s.cfg.inter.p : ℤ)) (hi : s.cfg.inter.WF) (he : s.cfg.coeff.emax ≤ s.cfg.inter.emax)
    (h1 : 1 ≤ pow2 (s.cfg.coeff.emax - 2)) {D : ℚ} (h0 : 0 ≤ D) (hD : D * pow2 ((s.cfg.inter.p : ℤ) - 1) ≤ pow2 (s.cfg.coeff.emax - 2)) : magHit s (.fin false D) (.fin false 0) = false := by
  have hpos := pow2_pos (1 - (s.cfg.inter.p : ℤ))
  have hp1 := hi.p_pos
  have hp2 := hc.p_pos
  have hp3 := hc.p_le
  have hlt : Fl.lt (.fin false (pow2 (1 - (s.cfg.inter.p : ℤ)))) (.fin false |(0 : ℚ)|) = false := by
    simp [Fl.lt, hpos.le]
  have heps : s.cfg.coeff.deliver false (pow2 (1 - (s.cfg.inter.p : ℤ))) = .fin false (pow2 (1 - (s.cfg.inter.p : ℤ))) :=
    deliver_exact hpos.le (s.cfg.coeff.rnd_pow2 hc hq) (pow2_le (by omega))
  have hdiv : D / pow2 (1 - (s.cfg.inter.p : ℤ)) = D * pow2 ((s.cfg.inter.p : ℤ) - 1) := by
    rw [div_eq_mul_inv, pow2_eq, pow2_eq, ← zpow_neg]
    congr 2
    ring
  have hdouble : ∀ e : ℤ, pow2 e = pow2 (e - 1) + pow2 (e - 1) := by
    intro e
    rw [pow2_eq, pow2_eq, ← two_mul, mul_comm, ← zpow_add_one₀ (by norm_num), sub_add_cancel]
  have hd1 := hdouble (s.cfg.coeff.emax - 1)
  rw [show s.cfg.coeff.emax - 1 - 1 = s.cfg.coeff.emax - 2 by ring] at hd1
  have hem : 2 ≤ s.cfg.coeff.emax := by
    by_contra hlt
    have : pow2 (s.cfg.coeff.emax - 2) ≤ pow2 (0 - 1) := pow2_le (by omega)
    have h2 := hdouble 0
    rw [show pow2 0 = 1 by simp [pow2]] at h2
    linarith
  have hql := hc.qmin_le
  have hX0 : 0 ≤ D * pow2 ((s.cfg.inter.p : ℤ) - 1) := mul_nonneg h0 (pow2_pos _).le
  generalize D * pow2 ((s.cfg.inter.p : ℤ) - 1) = X at hD hX0 hdiv
  have hX1 : s.cfg.coeff.rnd X ≤ pow2 (s.cfg.coeff.emax - 2) := by
    have := s.cfg.coeff.rnd_mono hp2 hD
    rwa [s.cfg.coeff.rnd_pow2 hc (by omega)] at this
  have hX2 : 0 ≤ s.cfg.coeff.rnd X := by
    have := s.cfg.coeff.rnd_mono hp2 hX0
    rwa [s.cfg.coeff.rnd_zero] at this
  have hlt1 := pow2_prev_lt s.cfg.coeff.emax
  have dX : s.cfg.coeff.deliver false X = .fin false (s.cfg.coeff.rnd X) := deliver_nn _ hX0 (by linarith [pow2_pos (s.cfg.coeff.emax - 2)])
  have hY1 : s.cfg.coeff.rnd (s.cfg.coeff.rnd X + 1) ≤ pow2 (s.cfg.coeff.emax - 1) := by
    have := s.cfg.coeff.rnd_mono hp2 (by linarith : s.cfg.coeff.rnd X + 1 ≤ pow2 (s.cfg.coeff.emax - 1))
    rwa [s.cfg.coeff.rnd_pow2 hc (by omega)] at this
  have hY2 : 1 ≤ s.cfg.coeff.rnd (s.cfg.coeff.rnd X + 1) := by
    have := s.cfg.coeff.rnd_mono hp2 (by linarith : 1 ≤ s.cfg.coeff.rnd X + 1)
    rwa [s.cfg.coeff.rnd_one hc] at this
  have dY : s.cfg.coeff.deliver false (s.cfg.coeff.rnd X + 1) = .fin false (s.cfg.coeff.rnd (s.cfg.coeff.rnd X + 1)) := deliver_nn _ (by linarith) (by linarith)
  generalize s.cfg.coeff.rnd (s.cfg.coeff.rnd X + 1) = Y at hY1 hY2 dY
  have hiq := hi.qmin_le
  have hT1 : s.cfg.inter.rnd Y ≤ pow2 (s.cfg.inter.emax - 1) := by
    have := s.cfg.inter.rnd_mono hp1 (le_trans hY1 (pow2_le (by omega : s.cfg.coeff.emax - 1 ≤ s.cfg.inter.emax - 1)))
    rwa [s.cfg.inter.rnd_pow2 hi (by omega)] at this
  have hT2 : 1 ≤ s.cfg.inter.rnd Y := by
    have := s.cfg.inter.rnd_mono hp1 hY2
    rwa [s.cfg.inter.rnd_one hi] at this
  have dT : s.cfg.inter.deliver false Y = .fin false (s.cfg.inter.rnd Y) := deliver_nn _ (by linarith) (by linarith [pow2_prev_lt s.cfg.inter.emax])
  have habs : |pow2 (1 - (s.cfg.inter.p : ℤ))| = pow2 (1 - (s.cfg.inter.p : ℤ)) := abs_of_pos hpos
  unfold magHit
  simp only [Fl.fabs, hlt, Bool.false_eq_true, if_false, heps, Fl.copysign, Fl.signbit, habs, Fmt.div, hpos.ne', hdiv, Bool.xor_self, dX, Fmt.add, Bool.and_self, dY, Fmt.conv, dT]
  rw [abs_of_nonneg (by linarith)]
  simpa using hT2

theorem frameScore_dot {d : Detect} (hF : s.cfg.inter.WF) (hp : Precise s.cfg) (hc : s.cfg.coeff.WF) (hq : s.cfg.coeff.qmin ≤ 1 - (s.cfg.inter.p : ℤ))
    (he : s.cfg.coeff.emax ≤ s.cfg.inter.emax) (h1 : 1 ≤ pow2 (s.cfg.coeff.emax - 2)) {D : ℚ} (h0 : 0 ≤ D)
    (hD : D * pow2 ((s.cfg.inter.p : ℤ) - 1) ≤ pow2 (s.cfg.coeff.emax - 2))
    (hn : n ≤ 2 ^ s.cfg.inter.p) (hr : range ≤ 2 ^ s.cfg.inter.p) (hn0 : 0 < n) (hr0 : 0 < range) (hx : range ≤ x) (hx' : x + range < len)
    (hg : ∀ y < n, ∀ z < len, g y z = .fin false 0 ∨ (z = 0 ∧ g y z = .fin false D)) : (frameScore s d g n range x).getD (.fin false 0) = .fin false 0 := by
  have hratio : ∀ {a b}, a ≤ 2 ^ s.cfg.inter.p → b ≤ 2 ^ s.cfg.inter.p → 0 < a → 0 < b → ratio s.cfg 0 a b = .fin false 0 := by
    intro a b ha hb ha0 hb0
    rw [(ratio_eq hF hp ha hb ha0 hb0 (Nat.zero_le _)).1]
    simp [s.cfg.inter.rnd_zero]
  have hpl : ∀ y < n, ∀ z < len, (g y z).signbit = false := by
    intro y hy z hz
    rcases hg y hy z hz with e | ⟨_, e⟩ <;> rw [e] <;> rfl
  have hz0 : ∀ y < n, ∀ z < len, 0 < z → g y z = .fin false 0 := by
    intro y hy z hz hpos
    rcases hg y hy z hz with e | ⟨e, _⟩
    · exact e
    · omega
  have hroom : (s.cfg.inter.p : ℤ) < s.cfg.inter.emax := by have := hp.room; omega
  have hon := ofNat_exact hF hroom hn
  have hor := ofNat_exact hF hroom hr
  have hdiv : s.cfg.inter.div (.fin false 0) (s.cfg.inter.ofNat n) = .fin false 0 := by
    rw [hon]
    have : (n : ℚ) ≠ 0 := by exact_mod_cast hn0.ne'
    simp [Fmt.div, this, deliver_zero]
  cases d with
  | sign =>
    have hsign : signMatches g n range x = 0 := by
      unfold signMatches
      rw [Finset.card_eq_zero, Finset.filter_eq_empty_iff]
      intro q hq
      simp only [Finset.mem_product, Finset.mem_range, Finset.mem_Icc] at hq
      rw [hpl _ hq.1 _ (by omega), hpl _ hq.1 _ (by omega)]
      simp
    simp only [frameScore, Option.getD_some, hsign, hratio hn hr hn0 hr0]
  | mag =>
    have : pairMatches (magHit s) g n range x = 0 := by
      unfold pairMatches
      rw [Finset.card_eq_zero, Finset.filter_eq_empty_iff]
      intro q hq'
      simp only [Finset.mem_product, Finset.mem_range, Finset.mem_Icc] at hq'
      rw [hz0 _ hq'.1 (x + q.2) (by omega) (by omega)]
      rcases hg _ hq'.1 (x - q.2) (by omega) with e | ⟨_, e⟩
      · rw [e, magHit_zero hc hq hF]
        simp
      · rw [e, magHit_right_zero hc hq hF he h1 h0 hD]
        simp
    simp only [frameScore, Option.getD_some, this, hratio hn hr hn0 hr0]
  | orig =>
    have hmm : ∀ z < len, 0 < z → meanMag s.cfg g n z = .fin false 0 := by
      intro z hz hpos
      unfold meanMag
      rw [fsum_zeros ?_, hdiv]
      intro y hy
      obtain ⟨i, hi, rfl⟩ := List.mem_map.mp hy
      rw [hz0 i (List.mem_range.mp hi) z hz hpos]
      simp [Fmt.conv, deliver_zero, Fl.fabs]
    have hmin : ∀ left : Fl, Fl.lt (.fin false 0) (if left.lt (.fin false 0) then left else .fin false 0) = false := by
      intro left
      split
      · rename_i hl
        cases left with
        | nan b => cases hl
        | inf b =>
          simp only [Fl.lt] at hl ⊢
          simp [hl]
        | fin b v =>
          simp only [Fl.lt, decide_eq_true_eq, decide_eq_false_iff_not] at hl ⊢
          linarith
      · simp [Fl.lt]
    have : origPasses s.cfg g n range x = false := by
      unfold origPasses
      rw [fsum_zeros (l := (List.range range).map (fun i => meanMag s.cfg g n (x + (i + 1)))), hmm x (by omega) (by omega), hor]
      · simp [Fmt.mul, deliver_zero, hmin]
      · intro y hy
        obtain ⟨i, hi, rfl⟩ := List.mem_map.mp hy
        have := List.mem_range.mp hi
        exact hmm _ (by omega) (by omega)
    simp [frameScore, this]
  | zerox =>
    have : crossings g n x = 0 := by
      unfold crossings
      rw [Finset.card_eq_zero, Finset.filter_eq_empty_iff]
      intro y hy
      have hy := Finset.mem_range.mp hy
      unfold crosses
      rw [hpl _ hy _ (by omega), hpl _ hy _ (by omega)]
      simp
    have h0 : s.cfg.inter.ofNat 0 = .fin false 0 := by simp [Fmt.ofNat, deliver_zero]
    simp only [frameScore, Option.getD_some, this, h0, hdiv]

end

end Verif
