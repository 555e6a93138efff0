import Verif.Proofs.Factor
import Mathlib.Data.Nat.Prime.Basic
import Mathlib.Data.Nat.Sqrt
import Mathlib.Tactic.Linarith

/-! The radices of kissfft are primes or 4. -/

namespace Verif

/-- Trial divisors of `kf_factor`. -/
def Cand (p : ℕ) : Prop := p = 4 ∨ p = 2 ∨ (3 ≤ p ∧ p % 2 = 1)

/-- Every prime below the trial divisor has been divided out. -/
def Low (p n : ℕ) : Prop := p = 4 ∨ ∀ q, q.Prime → q ∣ n → p ≤ q

theorem Cand.of_prime {p : ℕ} (h : p.Prime) : Cand p := by
  rcases h.eq_two_or_odd with h2 | h2
  · exact Or.inr (Or.inl h2)
  · have := h.two_le
    exact Or.inr (Or.inr ⟨by omega, h2⟩)

theorem prime_of_low {s n : ℕ} (hn : 2 ≤ n) (hs : n < (s + 1) * (s + 1)) (h : ∀ q, q.Prime → q ∣ n → s + 1 ≤ q) : n.Prime := by
  by_contra hc
  have h1 := h _ (Nat.minFac_prime (by omega)) (Nat.minFac_dvd n)
  have h2 := Nat.minFac_sq_le_self (by omega) hc
  have h3 : (s + 1) * (s + 1) ≤ n.minFac * n.minFac := Nat.mul_le_mul h1 h1
  rw [pow_two] at h2
  omega

theorem nextDivisor_inv {s n p : ℕ} (hn : 2 ≤ n) (hs : n < (s + 1) * (s + 1)) (hc : Cand p) (hl : Low p n) (hd : n % p ≠ 0) :
    Cand (nextDivisor s n p) ∧ Low (nextDivisor s n p) n := by
  -- the next trial divisor before the square root test
  have key : ∀ p', (p' = 2 ∨ (3 ≤ p' ∧ p' % 2 = 1)) → (∀ q, q.Prime → q ∣ n → p' ≤ q) →
      Cand (if p' > s then n else p') ∧ Low (if p' > s then n else p') n := by
    intro p' hp' hlow
    split
    · rename_i hgt
      have hpr : n.Prime := prime_of_low hn hs (fun q hq hqn => le_trans (by omega) (hlow q hq hqn))
      exact ⟨Cand.of_prime hpr, Or.inr (fun q hq hqn => ((Nat.prime_dvd_prime_iff_eq hq hpr).mp hqn).ge)⟩
    · exact ⟨Or.inr hp', Or.inr hlow⟩
  unfold nextDivisor
  simp only
  by_cases h4 : p = 4
  · rw [if_pos h4]
    exact key 2 (Or.inl rfl) (fun q hq _ => hq.two_le)
  · rw [if_neg h4]
    have hlow : ∀ q, q.Prime → q ∣ n → p ≤ q := by
      rcases hl with h | h
      · exact absurd h h4
      · exact h
    have hne : ∀ q, q.Prime → q ∣ n → p < q := by
      intro q hq hqn
      refine lt_of_le_of_ne (hlow q hq hqn) ?_
      rintro rfl
      exact hd (Nat.mod_eq_zero_of_dvd hqn)
    by_cases h2 : p = 2
    · rw [if_pos h2]
      refine key 3 (Or.inr ⟨le_rfl, rfl⟩) ?_
      intro q hq hqn
      have := hne q hq hqn
      omega
    · rw [if_neg h2]
      obtain ⟨hp3, hodd⟩ : 3 ≤ p ∧ p % 2 = 1 := by
        rcases hc with h | h | h
        · exact absurd h h4
        · exact absurd h h2
        · exact h
      refine key (p + 2) (Or.inr ⟨by omega, by omega⟩) ?_
      intro q hq hqn
      have := hne q hq hqn
      rcases hq.eq_two_or_odd with h | h <;> omega

theorem findDivisor_prime {s n : ℕ} (hn : 2 ≤ n) (hs : n < (s + 1) * (s + 1)) {fuel p q : ℕ} (hc : Cand p) (hl : Low p n)
    (h : findDivisor s n fuel p = some q) : (q = 4 ∨ q.Prime) ∧ Low q n := by
  have found : ∀ p, Cand p → Low p n → n % p = 0 → (p = 4 ∨ p.Prime) ∧ Low p n := by
    intro p hc hl hd
    refine ⟨?_, hl⟩
    rcases hl with h4 | hlow
    · exact Or.inl h4
    · right
      have hp2 : 2 ≤ p := by unfold Cand at hc; omega
      have h1 := hlow _ (Nat.minFac_prime (show p ≠ 1 by omega)) ((Nat.minFac_dvd p).trans (Nat.dvd_of_mod_eq_zero hd))
      have h2 := Nat.minFac_le (show 0 < p by omega)
      have h3 : p.minFac = p := le_antisymm h2 h1
      rw [← h3]
      exact Nat.minFac_prime (by omega)
  induction fuel generalizing p with
  | zero =>
    unfold findDivisor at h
    split at h
    · cases h; exact found _ hc hl (by assumption)
    · cases h
  | succ fuel ih =>
    unfold findDivisor at h
    split at h
    · cases h; exact found _ hc hl (by assumption)
    · rename_i hd
      obtain ⟨h1, h2⟩ := nextDivisor_inv hn hs hc hl hd
      exact ih h1 h2 h

theorem factorLoop_prime {s : ℕ} {room n p : ℕ} {fs : List (ℕ × ℕ)} (hn : 2 ≤ n) (hs : n < (s + 1) * (s + 1)) (hc : Cand p)
    (hl : Low p n) (h : factorLoop s room n p = some fs) : ∀ x ∈ fs, x.1 = 4 ∨ x.1.Prime := by
  induction room generalizing n p fs with
  | zero => cases h
  | succ room ih =>
    unfold factorLoop at h
    cases hq : findDivisor s n (s + 3) p with
    | none => rw [hq] at h; cases h
    | some q =>
      rw [hq] at h
      simp only [Option.bind_eq_bind, Option.bind_some] at h
      obtain ⟨hpr, hlow⟩ := findDivisor_prime hn hs hc hl hq
      have hdvd : q ∣ n := Nat.dvd_of_mod_eq_zero (findDivisor_some hq)
      by_cases hgt : n / q > 1
      · rw [if_pos hgt] at h
        cases hr : factorLoop s room (n / q) q with
        | none => rw [hr] at h; cases h
        | some rest =>
          rw [hr] at h
          cases h
          have hle := Nat.div_le_self n q
          have hc' : Cand q := by
            rcases hpr with h | h
            · exact Or.inl h
            · exact Cand.of_prime h
          have hl' : Low q (n / q) := by
            rcases hlow with h | h
            · exact Or.inl h
            · exact Or.inr (fun r hr hrd => h r hr (hrd.trans (Nat.div_dvd_of_dvd hdvd)))
          have := ih (by omega) (by omega) hc' hl' hr
          intro x hx
          rcases List.mem_cons.mp hx with rfl | hx
          · exact hpr
          · exact this x hx
      · rw [if_neg hgt] at h
        cases h
        intro x hx
        rw [List.mem_singleton] at hx
        subst hx
        exact hpr

theorem kfFactor_prime {n : ℕ} (hn : 2 ≤ n) {fs : List (ℕ × ℕ)} (h : kfFactor n = some fs) : ∀ x ∈ fs, x.1 = 4 ∨ x.1.Prime :=
  factorLoop_prime hn (Nat.lt_succ_sqrt n) (Or.inl rfl) (Or.inl rfl) h

theorem Stages.prod {n : ℕ} {fs : List (ℕ × ℕ)} (h : Stages n fs) : (fs.map Prod.fst).prod = n := by
  induction fs generalizing n with
  | nil => exact h.elim
  | cons x rest ih =>
    obtain ⟨p, m⟩ := x
    obtain ⟨h1, h2, h3, h4⟩ := h
    rw [List.map_cons, List.prod_cons, h3]
    split at h4
    · rename_i hm
      rw [h4, hm]; simp
    · rw [ih h4]

theorem Stages.rest {n : ℕ} {fs : List (ℕ × ℕ)} (h : Stages n fs) :
    ∀ i x, fs[i]? = some x → x.2 = ((fs.drop (i + 1)).map Prod.fst).prod := by
  induction fs generalizing n with
  | nil => exact h.elim
  | cons x rest ih =>
    obtain ⟨p, m⟩ := x
    obtain ⟨h1, h2, h3, h4⟩ := h
    intro i x hx
    split at h4
    · rename_i hm
      subst h4
      cases i with
      | zero => simp only [List.getElem?_cons_zero, Option.some.injEq] at hx; subst hx; simpa using hm
      | succ i => simp at hx
    · cases i with
      | zero =>
        simp only [List.getElem?_cons_zero, Option.some.injEq] at hx
        subst hx
        simpa using h4.prod.symm
      | succ i => simpa using ih h4 i x (by simpa using hx)

end Verif
