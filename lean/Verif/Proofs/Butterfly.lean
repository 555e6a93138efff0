import Verif.Model.Kiss
import Verif.Proofs.Loops
import Verif.Proofs.Temp
import Mathlib.Tactic.IntervalCases

/-! What the butterfly loops of kissfft do to an array, for any scalar arithmetic. -/

namespace Verif

variable {S : Type}

/-- Element `i` of an array of complex numbers, zero outside. -/
def cget (A : Arith S) (l : List (Cpx S)) (i : ℕ) : Cpx S := (l[i]?).getD ⟨A.zero, A.zero⟩

theorem rd_cget (A : Arith S) {l : List (Cpx S)} {i : ℕ} (h : i < l.length) : rd l i = some (cget A l i) := by
  rw [rd_eq h]; unfold cget; rw [List.getElem?_eq_getElem h]; rfl

theorem getElem?_cget (A : Arith S) {l : List (Cpx S)} {i : ℕ} (h : i < l.length) : l[i]? = some (cget A l i) :=
  rd_cget A h

theorem pos_lt {p m k q : ℕ} (hk : k < m) (hq : q < p) : k + q * m < p * m := by
  have : (q + 1) * m ≤ p * m := Nat.mul_le_mul_right _ hq
  rw [Nat.add_mul, Nat.one_mul] at this
  omega

/-- A loop over `k < m` that replaces the entries `k, k+m, ..., k+(p-1)m` by a function of their old values. -/
theorem radix_loop (A : Arith S) {p m : ℕ} {out : List (Cpx S)} (hlen : out.length = p * m)
    (step : ℕ → (ℕ → Cpx S) → ℕ → Cpx S) {body : ℕ → List (Cpx S) → Option (List (Cpx S))}
    (hb : ∀ k l, k < m → l.length = p * m → ∃ l', body k l = some l' ∧ l'.length = p * m ∧
      (∀ q, q < p → l'[k + q * m]? = some (step k (fun q => cget A l (k + q * m)) q)) ∧
      (∀ i, i % m ≠ k → l'[i]? = l[i]?))
    (hcongr : ∀ k g g', (∀ q, q < p → g q = g' q) → ∀ q, step k g q = step k g' q) :
    ∃ r, loop 0 m body out = some r ∧ r.length = p * m ∧
      ∀ k q, k < m → q < p → cget A r (k + q * m) = step k (fun q => cget A out (k + q * m)) q := by
  rcases Nat.eq_zero_or_pos m with rfl | hm
  · exact ⟨out, loop_of_ge le_rfl, hlen, fun k q hk => absurd hk (by omega)⟩
  obtain ⟨r, h1, h2, h3⟩ := loop_inv
    (P := fun j (l : List (Cpx S)) => l.length = p * m ∧ ∀ k q, k < m → q < p → l[k + q * m]? =
      if k < j then some (step k (fun q => cget A out (k + q * m)) q) else out[k + q * m]?)
    (body := body) (s := out) (Nat.zero_le m) ⟨hlen, by simp⟩
    (by
      rintro j l - hj ⟨hl, hP⟩
      obtain ⟨l', e1, e2, e3, e4⟩ := hb j l hj hl
      refine ⟨l', e1, e2, ?_⟩
      intro k q hk hq
      by_cases hkj : k = j
      · subst hkj
        rw [if_pos (by omega), e3 q hq]
        congr 1
        apply hcongr
        intro q hq
        unfold cget
        rw [hP k q hk hq, if_neg (by omega)]
      · have : (k + q * m) % m ≠ j := by
          rw [Nat.add_mul_mod_self_right, Nat.mod_eq_of_lt hk]; exact hkj
        rw [e4 _ this, hP k q hk hq]
        by_cases hlt : k < j
        · rw [if_pos hlt, if_pos (by omega)]
        · rw [if_neg hlt, if_neg (by omega)])
  refine ⟨r, h1, h2, ?_⟩
  intro k q hk hq
  unfold cget
  rw [h3 k q hk hq, if_pos hk]
  rfl

theorem mod_ne_pos {m i k q : ℕ} (hk : k < m) (h : i % m ≠ k) : k + q * m ≠ i := by
  rintro rfl
  rw [Nat.add_mul_mod_self_right, Nat.mod_eq_of_lt hk] at h
  exact h rfl

theorem twAt_eq (A : Arith S) {st : FftCfg} {k : ℕ} (h : k < st.nfft) : twAt A st k = some (A.twiddle st.nfft k) := by
  unfold twAt; rw [if_pos h]

theorem tw_lt {N fstride p m k j : ℕ} (hN : N = fstride * (p * m)) (hf : 0 < fstride) (hk : k < m) (hj : j < p) :
    k * (fstride * j) < N := by
  have h1 : k * j < p * m := by
    rcases Nat.eq_zero_or_pos j with rfl | hj0
    · rw [Nat.mul_zero]; exact Nat.mul_pos (by omega) (by omega)
    · calc k * j < m * j := Nat.mul_lt_mul_of_pos_right hk hj0
        _ ≤ m * p := Nat.mul_le_mul_left _ hj.le
        _ = p * m := Nat.mul_comm _ _
  calc k * (fstride * j) = fstride * (k * j) := by ring
    _ < fstride * (p * m) := Nat.mul_lt_mul_of_pos_left h1 hf
    _ = N := hN.symm

/-- Twiddle factor `k` of a configuration. -/
def tw (A : Arith S) (st : FftCfg) (k : ℕ) : Cpx S := A.twiddle st.nfft k

section
variable (A : Arith S) {st : FftCfg} {fstride m : ℕ} {out : List (Cpx S)}

theorem kfBfly2_spec (hN : st.nfft = fstride * (2 * m)) (hf : 0 < fstride) (hlen : out.length = 2 * m) :
    ∃ r, kfBfly2 A st fstride m out = some r ∧ r.length = 2 * m ∧ ∀ k q, k < m → q < 2 →
      cget A r (k + q * m) =
        (fun x => if q = 0 then x.1 else x.2) (bfly2Step A (tw A st (k * fstride)) (cget A out k) (cget A out (k + m))) := by
  unfold kfBfly2
  obtain ⟨r, h1, h2, h3⟩ := radix_loop A hlen
    (fun k g q => (fun x => if q = 0 then x.1 else x.2) (bfly2Step A (tw A st (k * fstride)) (g 0) (g 1)))
    (body := fun k out => do
      let f0 ← rd out k
      let f1 ← rd out (k + m)
      let tw1 ← twAt A st (k * fstride)
      let (g0, g1) := bfly2Step A tw1 f0 f1
      let out ← wr out (k + m) g1
      wr out k g0)
    (by
      intro k l hk hl
      have t1 := tw_lt hN hf hk (show 1 < 2 by omega)
      rw [Nat.mul_one] at t1
      rw [rd_cget A (show k < l.length by omega), rd_cget A (show k + m < l.length by omega), twAt_eq A t1]
      simp only [Option.bind_eq_bind, Option.bind_some]
      rw [wr_eq (by omega), Option.bind_some, wr_eq (by rw [List.length_set]; omega)]
      refine ⟨_, rfl, by simp [hl], ?_, ?_⟩
      · intro q hq
        have : k + m < l.length := by omega
        have : k < l.length := by omega
        interval_cases q <;> simp only [Nat.zero_mul, Nat.one_mul, Nat.add_zero] <;>
          repeat (first
            | rw [List.getElem?_set_self (by simp only [List.length_set, hl]; omega)]; rfl
            | rw [List.getElem?_set_ne (by omega)])
      · intro i hi
        have n0 := mod_ne_pos (q := 0) hk hi
        have n1 := mod_ne_pos (q := 1) hk hi
        rw [Nat.zero_mul, Nat.add_zero] at n0
        rw [Nat.one_mul] at n1
        rw [List.getElem?_set_ne n0, List.getElem?_set_ne n1])
    (by intro k g g' h q; simp only; rw [h 0 (by omega), h 1 (by omega)])
  refine ⟨r, h1, h2, ?_⟩
  intro k q hk hq
  rw [h3 k q hk hq]
  simp

theorem kfBfly3_spec (hN : st.nfft = fstride * (3 * m)) (hf : 0 < fstride) (hm : 0 < m) (hlen : out.length = 3 * m) :
    ∃ r, kfBfly3 A st fstride m out = some r ∧ r.length = 3 * m ∧ ∀ k q, k < m → q < 3 →
      cget A r (k + q * m) =
        (fun x => if q = 0 then x.1 else if q = 1 then x.2.1 else x.2.2)
          (bfly3Step A (tw A st (fstride * m)) (tw A st (k * fstride)) (tw A st (k * (fstride * 2)))
            (cget A out k) (cget A out (k + m)) (cget A out (k + 2 * m))) := by
  unfold kfBfly3
  have e : fstride * m < st.nfft := by
    rw [hN]; exact Nat.mul_lt_mul_of_pos_left (by omega) hf
  rw [twAt_eq A e]
  simp only [Option.bind_eq_bind, Option.bind_some]
  obtain ⟨r, h1, h2, h3⟩ := radix_loop A hlen
    (fun k g q => (fun x => if q = 0 then x.1 else if q = 1 then x.2.1 else x.2.2)
      (bfly3Step A (tw A st (fstride * m)) (tw A st (k * fstride)) (tw A st (k * (fstride * 2))) (g 0) (g 1) (g 2)))
    (body := fun k out => do
      let f0 ← rd out k
      let f1 ← rd out (k + m)
      let f2 ← rd out (k + 2 * m)
      let tw1 ← twAt A st (k * fstride)
      let tw2 ← twAt A st (k * (fstride * 2))
      let (g0, g1, g2) := bfly3Step A (A.twiddle st.nfft (fstride * m)) tw1 tw2 f0 f1 f2
      let out ← wr out k g0
      let out ← wr out (k + 2 * m) g2
      wr out (k + m) g1)
    (by
      intro k l hk hl
      have t1 := tw_lt hN hf hk (show 1 < 3 by omega)
      have t2 := tw_lt hN hf hk (show 2 < 3 by omega)
      rw [Nat.mul_one] at t1
      rw [rd_cget A (show k < l.length by omega), rd_cget A (show k + m < l.length by omega),
        rd_cget A (show k + 2 * m < l.length by omega), twAt_eq A t1, twAt_eq A t2]
      simp only [Option.bind_eq_bind, Option.bind_some]
      rw [wr_eq (by omega), Option.bind_some, wr_eq (by rw [List.length_set]; omega), Option.bind_some,
        wr_eq (by rw [List.length_set, List.length_set]; omega)]
      refine ⟨_, rfl, by simp [hl], ?_, ?_⟩
      · intro q hq
        have : k + m < l.length := by omega
        have : k + 2 * m < l.length := by omega
        have : k < l.length := by omega
        interval_cases q <;> simp only [Nat.zero_mul, Nat.one_mul, Nat.add_zero] <;>
          repeat (first
            | rw [List.getElem?_set_self (by simp only [List.length_set, hl]; omega)]; rfl
            | rw [List.getElem?_set_ne (by omega)])
      · intro i hi
        have n0 := mod_ne_pos (q := 0) hk hi
        have n1 := mod_ne_pos (q := 1) hk hi
        have n2 := mod_ne_pos (q := 2) hk hi
        rw [Nat.zero_mul, Nat.add_zero] at n0
        rw [Nat.one_mul] at n1
        rw [List.getElem?_set_ne n1, List.getElem?_set_ne n2, List.getElem?_set_ne n0])
    (by intro k g g' h q; simp only; rw [h 0 (by omega), h 1 (by omega), h 2 (by omega)])
  refine ⟨r, h1, h2, ?_⟩
  intro k q hk hq
  rw [h3 k q hk hq]
  simp

theorem kfBfly4_spec (hN : st.nfft = fstride * (4 * m)) (hf : 0 < fstride) (hlen : out.length = 4 * m) :
    ∃ r, kfBfly4 A st fstride m out = some r ∧ r.length = 4 * m ∧ ∀ k q, k < m → q < 4 →
      cget A r (k + q * m) =
        (fun x => if q = 0 then x.1 else if q = 1 then x.2.1 else if q = 2 then x.2.2.1 else x.2.2.2)
          (bfly4Step A (tw A st (k * fstride)) (tw A st (k * (fstride * 2))) (tw A st (k * (fstride * 3)))
            (cget A out k) (cget A out (k + m)) (cget A out (k + 2 * m)) (cget A out (k + 3 * m))) := by
  unfold kfBfly4
  obtain ⟨r, h1, h2, h3⟩ := radix_loop A hlen
    (fun k g q => (fun x => if q = 0 then x.1 else if q = 1 then x.2.1 else if q = 2 then x.2.2.1 else x.2.2.2)
      (bfly4Step A (tw A st (k * fstride)) (tw A st (k * (fstride * 2))) (tw A st (k * (fstride * 3)))
        (g 0) (g 1) (g 2) (g 3)))
    (body := fun k out => do
      let f0 ← rd out k
      let f1 ← rd out (k + m)
      let f2 ← rd out (k + 2 * m)
      let f3 ← rd out (k + 3 * m)
      let tw1 ← twAt A st (k * fstride)
      let tw2 ← twAt A st (k * (fstride * 2))
      let tw3 ← twAt A st (k * (fstride * 3))
      let (g0, g1, g2, g3) := bfly4Step A tw1 tw2 tw3 f0 f1 f2 f3
      let out ← wr out (k + 2 * m) g2
      let out ← wr out k g0
      let out ← wr out (k + m) g1
      wr out (k + 3 * m) g3)
    (by
      intro k l hk hl
      have t1 := tw_lt hN hf hk (show 1 < 4 by omega)
      have t2 := tw_lt hN hf hk (show 2 < 4 by omega)
      have t3 := tw_lt hN hf hk (show 3 < 4 by omega)
      rw [Nat.mul_one] at t1
      rw [rd_cget A (show k < l.length by omega), rd_cget A (show k + m < l.length by omega),
        rd_cget A (show k + 2 * m < l.length by omega), rd_cget A (show k + 3 * m < l.length by omega),
        twAt_eq A t1, twAt_eq A t2, twAt_eq A t3]
      simp only [Option.bind_eq_bind, Option.bind_some]
      rw [wr_eq (by omega), Option.bind_some, wr_eq (by simp only [List.length_set]; omega), Option.bind_some,
        wr_eq (by simp only [List.length_set]; omega), Option.bind_some, wr_eq (by simp only [List.length_set]; omega)]
      refine ⟨_, rfl, by simp [hl], ?_, ?_⟩
      · intro q hq
        have : k + m < l.length := by omega
        have : k + 2 * m < l.length := by omega
        have : k + 3 * m < l.length := by omega
        have : k < l.length := by omega
        interval_cases q <;> simp only [Nat.zero_mul, Nat.one_mul, Nat.add_zero] <;>
          repeat (first
            | rw [List.getElem?_set_self (by simp only [List.length_set, hl]; omega)]; rfl
            | rw [List.getElem?_set_ne (by omega)])
      · intro i hi
        have n0 := mod_ne_pos (q := 0) hk hi
        have n1 := mod_ne_pos (q := 1) hk hi
        have n2 := mod_ne_pos (q := 2) hk hi
        have n3 := mod_ne_pos (q := 3) hk hi
        rw [Nat.zero_mul, Nat.add_zero] at n0
        rw [Nat.one_mul] at n1
        rw [List.getElem?_set_ne n3, List.getElem?_set_ne n1, List.getElem?_set_ne n0, List.getElem?_set_ne n2])
    (by intro k g g' h q; simp only; rw [h 0 (by omega), h 1 (by omega), h 2 (by omega), h 3 (by omega)])
  refine ⟨r, h1, h2, ?_⟩
  intro k q hk hq
  rw [h3 k q hk hq]
  simp

theorem kfBfly5_spec (hN : st.nfft = fstride * (5 * m)) (hf : 0 < fstride) (hm : 0 < m) (hlen : out.length = 5 * m) :
    ∃ r, kfBfly5 A st fstride m out = some r ∧ r.length = 5 * m ∧ ∀ k q, k < m → q < 5 →
      cget A r (k + q * m) =
        (fun x => if q = 0 then x.1 else if q = 1 then x.2.1 else if q = 2 then x.2.2.1
            else if q = 3 then x.2.2.2.1 else x.2.2.2.2)
          (bfly5Step A (tw A st (fstride * m)) (tw A st (fstride * 2 * m)) (tw A st (k * fstride))
            (tw A st (2 * k * fstride)) (tw A st (3 * k * fstride)) (tw A st (4 * k * fstride))
            (cget A out k) (cget A out (k + m)) (cget A out (k + 2 * m)) (cget A out (k + 3 * m))
            (cget A out (k + 4 * m))) := by
  unfold kfBfly5
  have e : fstride * m < st.nfft := by
    rw [hN]; exact Nat.mul_lt_mul_of_pos_left (by omega) hf
  have e2 : fstride * 2 * m < st.nfft := by
    rw [hN, Nat.mul_assoc]; exact Nat.mul_lt_mul_of_pos_left (by omega) hf
  rw [twAt_eq A e, twAt_eq A e2]
  obtain ⟨r, h1, h2, h3⟩ := radix_loop A hlen
    (fun k g q => (fun x => if q = 0 then x.1 else if q = 1 then x.2.1 else if q = 2 then x.2.2.1
            else if q = 3 then x.2.2.2.1 else x.2.2.2.2)
      (bfly5Step A (tw A st (fstride * m)) (tw A st (fstride * 2 * m)) (tw A st (k * fstride))
            (tw A st (2 * k * fstride)) (tw A st (3 * k * fstride)) (tw A st (4 * k * fstride))
        (g 0) (g 1) (g 2) (g 3) (g 4)))
    (body := fun u out => do
      let f0 ← rd out u
      let f1 ← rd out (u + m)
      let f2 ← rd out (u + 2 * m)
      let f3 ← rd out (u + 3 * m)
      let f4 ← rd out (u + 4 * m)
      let tw1 ← twAt A st (u * fstride)
      let tw2 ← twAt A st (2 * u * fstride)
      let tw3 ← twAt A st (3 * u * fstride)
      let tw4 ← twAt A st (4 * u * fstride)
      let (g0, g1, g2, g3, g4) := bfly5Step A (A.twiddle st.nfft (fstride * m)) (A.twiddle st.nfft (fstride * 2 * m))
        tw1 tw2 tw3 tw4 f0 f1 f2 f3 f4
      let out ← wr out u g0
      let out ← wr out (u + m) g1
      let out ← wr out (u + 4 * m) g4
      let out ← wr out (u + 2 * m) g2
      wr out (u + 3 * m) g3)
    (by
      intro k l hk hl
      have t1 := tw_lt hN hf hk (show 1 < 5 by omega)
      have t2 := tw_lt hN hf hk (show 2 < 5 by omega)
      have t3 := tw_lt hN hf hk (show 3 < 5 by omega)
      have t4 := tw_lt hN hf hk (show 4 < 5 by omega)
      rw [Nat.mul_one] at t1
      rw [show k * (fstride * 2) = 2 * k * fstride by ring] at t2
      rw [show k * (fstride * 3) = 3 * k * fstride by ring] at t3
      rw [show k * (fstride * 4) = 4 * k * fstride by ring] at t4
      rw [rd_cget A (show k < l.length by omega), rd_cget A (show k + m < l.length by omega),
        rd_cget A (show k + 2 * m < l.length by omega), rd_cget A (show k + 3 * m < l.length by omega),
        rd_cget A (show k + 4 * m < l.length by omega),
        twAt_eq A t1, twAt_eq A t2, twAt_eq A t3, twAt_eq A t4]
      simp only [Option.bind_eq_bind, Option.bind_some]
      rw [wr_eq (by omega), Option.bind_some, wr_eq (by simp only [List.length_set]; omega), Option.bind_some,
        wr_eq (by simp only [List.length_set]; omega), Option.bind_some, wr_eq (by simp only [List.length_set]; omega),
        Option.bind_some, wr_eq (by simp only [List.length_set]; omega)]
      refine ⟨_, rfl, by simp [hl], ?_, ?_⟩
      · intro q hq
        have : k + m < l.length := by omega
        have : k + 2 * m < l.length := by omega
        have : k + 3 * m < l.length := by omega
        have : k + 4 * m < l.length := by omega
        have : k < l.length := by omega
        interval_cases q <;> simp only [Nat.zero_mul, Nat.one_mul, Nat.add_zero] <;>
          repeat (first
            | rw [List.getElem?_set_self (by simp only [List.length_set, hl]; omega)]; rfl
            | rw [List.getElem?_set_ne (by omega)])
      · intro i hi
        have n0 := mod_ne_pos (q := 0) hk hi
        have n1 := mod_ne_pos (q := 1) hk hi
        have n2 := mod_ne_pos (q := 2) hk hi
        have n3 := mod_ne_pos (q := 3) hk hi
        have n4 := mod_ne_pos (q := 4) hk hi
        rw [Nat.zero_mul, Nat.add_zero] at n0
        rw [Nat.one_mul] at n1
        rw [List.getElem?_set_ne n3, List.getElem?_set_ne n2, List.getElem?_set_ne n4, List.getElem?_set_ne n1,
          List.getElem?_set_ne n0])
    (by
      intro k g g' h q; simp only
      rw [h 0 (by omega), h 1 (by omega), h 2 (by omega), h 3 (by omega), h 4 (by omega)])
  refine ⟨r, h1, h2, ?_⟩
  intro k q hk hq
  rw [h3 k q hk hq]
  simp

/-- `sum_q scratch[q] * twiddle[(q*fstride*k) mod nfft]`, summed in order starting from `scratch[0]`. -/
def genericSum (A : Arith S) (st : FftCfg) (fstride k p : ℕ) (g : ℕ → Cpx S) : Cpx S :=
  (List.range' 1 (p - 1)).foldl (fun acc q => A.cAdd acc (A.cMul (g q) (tw A st ((q * (fstride * k)) % st.nfft)))) (g 0)

theorem genericAcc_spec {intMax k p : ℕ} {scratch : List (Cpx S)} (hp : 0 < p) (hlen : scratch.length = p)
    (hk : fstride * k < st.nfft) (hint : 2 * st.nfft ≤ intMax) :
    genericAcc A intMax st fstride k p scratch = some (genericSum A st fstride k p (cget A scratch)) := by
  unfold genericAcc
  rw [rd_cget A (show 0 < scratch.length by omega)]
  simp only [Option.bind_eq_bind, Option.bind_some]
  obtain ⟨r, h1, h2⟩ := loop_inv
    (P := fun j (s : ℕ × Cpx S) => s = (((j - 1) * (fstride * k)) % st.nfft, genericSum A st fstride k j (cget A scratch)))
    (body := fun q (s : ℕ × Cpx S) => do
      let t := s.1 + fstride * k
      if t > intMax then none
      let t := if t ≥ st.nfft then t - st.nfft else t
      let tw ← twAt A st t
      let sq ← rd scratch q
      return (t, A.cAdd s.2 (A.cMul sq tw))) (s := (0, cget A scratch 0)) (show 1 ≤ p by omega)
    (by simp [genericSum])
    (by
      intro q s h1 h2 hP
      have hs1 : s.1 < st.nfft := by rw [hP]; exact Nat.mod_lt _ (by omega)
      have hs1' : s.1 = ((q - 1) * (fstride * k)) % st.nfft := by rw [hP]
      have ht : (if s.1 + fstride * k ≥ st.nfft then s.1 + fstride * k - st.nfft else s.1 + fstride * k) =
          (q * (fstride * k)) % st.nfft := by
        have e : (s.1 + fstride * k) % st.nfft = (q * (fstride * k)) % st.nfft := by
          rw [hs1', Nat.mod_add_mod]
          congr 1
          obtain ⟨d, rfl⟩ : ∃ d, q = d + 1 := ⟨q - 1, by omega⟩
          rw [Nat.add_sub_cancel, Nat.add_mul, Nat.one_mul]
        rw [← e]
        split
        · rw [Nat.mod_eq_sub_mod (by omega), Nat.mod_eq_of_lt (by omega)]
        · rw [Nat.mod_eq_of_lt (by omega)]
      have hlt : (q * (fstride * k)) % st.nfft < st.nfft := Nat.mod_lt _ (by omega)
      refine ⟨((q * (fstride * k)) % st.nfft, A.cAdd s.2 (A.cMul (cget A scratch q)
        (tw A st ((q * (fstride * k)) % st.nfft)))), ?_, ?_⟩
      · simp only [Option.bind_eq_bind]
        rw [if_neg (by omega), ht, twAt_eq A hlt, rd_cget A (show q < scratch.length by omega)]
        rfl
      · simp only [Nat.add_sub_cancel]
        congr 1
        rw [hP]
        unfold genericSum
        simp only
        obtain ⟨d, rfl⟩ : ∃ d, q = d + 1 := ⟨q - 1, by omega⟩
        rw [Nat.add_sub_cancel, Nat.add_sub_cancel, List.range'_1_concat, List.foldl_append, Nat.add_comm 1 d]
        rfl)
  simp only [Option.bind_eq_bind] at h1
  rw [h1, h2]
  rfl

theorem mapM_rd {l : List (Cpx S)} {idx : ℕ → ℕ} {p : ℕ} (h : ∀ q, q < p → idx q < l.length) :
    (List.range p).mapM (fun q => rd l (idx q)) = some ((List.range p).map (fun q => cget A l (idx q))) := by
  have : ∀ ks : List ℕ, (∀ q ∈ ks, idx q < l.length) →
      ks.mapM (fun q => rd l (idx q)) = some (ks.map (fun q => cget A l (idx q))) := by
    intro ks
    induction ks with
    | nil => intro _; rfl
    | cons k ks ih =>
      intro hk
      rw [List.mapM_cons, rd_cget A (hk k (by simp)), ih (fun q hq => hk q (by simp [hq]))]
      rfl
  exact this _ (fun q hq => h q (by simpa using hq))

theorem genericSum_congr {k p : ℕ} (hp : 0 < p) {g g' : ℕ → Cpx S} (h : ∀ q, q < p → g q = g' q) :
    genericSum A st fstride k p g = genericSum A st fstride k p g' := by
  unfold genericSum
  rw [h 0 hp]
  have : ∀ (ks : List ℕ) (a : Cpx S), (∀ q ∈ ks, q < p) →
    ks.foldl (fun acc q => A.cAdd acc (A.cMul (g q) (tw A st ((q * (fstride * k)) % st.nfft)))) a =
    ks.foldl (fun acc q => A.cAdd acc (A.cMul (g' q) (tw A st ((q * (fstride * k)) % st.nfft)))) a := by
    intro ks
    induction ks with
    | nil => intro a _; rfl
    | cons q ks ih =>
      intro a hq
      rw [List.foldl_cons, List.foldl_cons, h q (hq q (by simp)), ih _ (fun q' h' => hq q' (by simp [h']))]
  apply this
  intro q hq
  rw [List.mem_range'_1] at hq
  omega

theorem genericLoops_spec {intMax p : ℕ} (hp : 0 < p) (hN : st.nfft = fstride * (p * m)) (hf : 0 < fstride)
    (hlen : out.length = p * m) (hint : 2 * st.nfft ≤ intMax) :
    ∃ r, genericLoops A intMax st fstride m p out = some r ∧ r.length = p * m ∧ ∀ k q, k < m → q < p →
      cget A r (k + q * m) = genericSum A st fstride (k + q * m) p (fun q => cget A out (k + q * m)) := by
  unfold genericLoops
  apply radix_loop A hlen (fun k g q => genericSum A st fstride (k + q * m) p g)
  · intro k l hk hl
    rw [mapM_rd A (fun q hq => by rw [hl]; exact pos_lt hk hq)]
    simp only [Option.bind_eq_bind, Option.bind_some]
    set scratch := (List.range p).map (fun q => cget A l (k + q * m)) with hscr
    have hsl : scratch.length = p := by simp [hscr]
    have hget : ∀ q, q < p → cget A scratch q = cget A l (k + q * m) := by
      intro q hq
      rw [hscr]; unfold cget
      rw [List.getElem?_map, List.getElem?_range hq]; rfl
    obtain ⟨r, h1, h2, h3, h4⟩ := loop_inv
      (P := fun j (l' : List (Cpx S)) => l'.length = p * m ∧
        (∀ q, q < j → l'[k + q * m]? = some (genericSum A st fstride (k + q * m) p (fun q => cget A l (k + q * m)))) ∧
        (∀ i, i % m ≠ k → l'[i]? = l[i]?))
      (body := fun q1 out => (genericAcc A intMax st fstride (k + q1 * m) p scratch).bind
        (fun v => wr out (k + q1 * m) v)) (s := l) (Nat.zero_le p)
      ⟨hl, by omega, fun _ _ => rfl⟩
      (by
        rintro j l' - hj ⟨e1, e2, e3⟩
        have hpos := pos_lt hk hj
        have hkN : fstride * (k + j * m) < st.nfft := by
          rw [hN]; exact Nat.mul_lt_mul_of_pos_left hpos hf
        rw [genericAcc_spec A hp hsl hkN hint, Option.bind_some, wr_eq (by omega)]
        refine ⟨_, rfl, by simp [e1], ?_, ?_⟩
        · intro q hq
          rcases Nat.lt_or_ge q j with hlt | hge
          · have hne : k + j * m ≠ k + q * m := by
              have : q * m < j * m := Nat.mul_lt_mul_of_pos_right hlt (by omega)
              omega
            rw [List.getElem?_set_ne hne, e2 q hlt]
          · have : q = j := by omega
            subst this
            rw [List.getElem?_set_self (by omega)]
            congr 1
            exact genericSum_congr A hp hget
        · intro i hi
          rw [List.getElem?_set_ne (mod_ne_pos hk hi), e3 i hi])
    exact ⟨r, h1, h2, h3, h4⟩
  · intro k g g' h q
    exact genericSum_congr A hp h

end

end Verif
