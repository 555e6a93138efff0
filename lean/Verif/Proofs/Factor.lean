import Verif.Model.Kiss
import Verif.Proofs.Loops
import Mathlib.Tactic.IntervalCases

/-! The factor table of kissfft. -/

namespace Verif

/-- A factor table for a transform of length `n`: each stage splits its length into radix times remaining length, until
the remaining length is one. -/
def Stages : ℕ → List (ℕ × ℕ) → Prop
  | _, [] => False
  | n, (p, m) :: rest => 0 < p ∧ 0 < m ∧ n = p * m ∧ (if m = 1 then rest = [] else Stages m rest)

theorem Stages.pos {n : ℕ} {fs : List (ℕ × ℕ)} (h : Stages n fs) : 0 < n := by
  cases fs with
  | nil => exact h.elim
  | cons x rest =>
    obtain ⟨p, m⟩ := x
    obtain ⟨h1, h2, h3, _⟩ := h
    rw [h3]; exact Nat.mul_pos h1 h2

theorem findDivisor_some {s n : ℕ} {fuel p q : ℕ} (h : findDivisor s n fuel p = some q) :
    n % q = 0 := by
  induction fuel generalizing p with
  | zero =>
    unfold findDivisor at h
    split at h
    · cases h; assumption
    · cases h
  | succ fuel ih =>
    unfold findDivisor at h
    split at h
    · cases h; assumption
    · exact ih h

theorem nextDivisor_ge {s n p : ℕ} (hn : 2 ≤ n) : 2 ≤ nextDivisor s n p := by
  unfold nextDivisor
  simp only
  split_ifs <;> omega

theorem findDivisor_ge {s n : ℕ} (hn : 2 ≤ n) {fuel p q : ℕ} (hp : 2 ≤ p) (h : findDivisor s n fuel p = some q) :
    2 ≤ q := by
  induction fuel generalizing p with
  | zero =>
    unfold findDivisor at h
    split at h
    · cases h; assumption
    · cases h
  | succ fuel ih =>
    unfold findDivisor at h
    split at h
    · cases h; assumption
    · exact ih (nextDivisor_ge hn) h

theorem findDivisor_self {s n fuel : ℕ} : findDivisor s n fuel n = some n := by
  cases fuel <;> unfold findDivisor <;> rw [if_pos (Nat.mod_self n)]

theorem findDivisor_odd {s n : ℕ} {fuel p : ℕ} (hp : 3 ≤ p) (h4 : p ≠ 4) (hf : s + 1 - p + 1 ≤ fuel) :
    ∃ q, findDivisor s n fuel p = some q := by
  induction fuel generalizing p with
  | zero => omega
  | succ fuel ih =>
    unfold findDivisor
    split
    · exact ⟨_, rfl⟩
    · have e : nextDivisor s n p = if p + 2 > s then n else p + 2 := by
        unfold nextDivisor; simp only; rw [if_neg h4, if_neg (show p ≠ 2 by omega)]
      rw [e]
      split
      · exact ⟨n, findDivisor_self⟩
      · exact ih (by omega) (by omega) (by omega)

/-- The search for a divisor ends. -/
theorem findDivisor_terminates {s n p : ℕ} (hp : 2 ≤ p) : ∃ q, findDivisor s n (s + 3) p = some q := by
  by_cases h4 : p = 4
  · subst h4
    rw [findDivisor]
    split
    · exact ⟨_, rfl⟩
    · have e : nextDivisor s n 4 = if 2 > s then n else 2 := by unfold nextDivisor; rfl
      rw [e]
      split
      · exact ⟨n, findDivisor_self⟩
      · rw [findDivisor]
        split
        · exact ⟨_, rfl⟩
        · have e : nextDivisor s n 2 = if 3 > s then n else 3 := by unfold nextDivisor; rfl
          rw [e]
          split
          · exact ⟨n, findDivisor_self⟩
          · exact findDivisor_odd (by omega) (by omega) (by omega)
  · by_cases h2 : p = 2
    · subst h2
      rw [findDivisor]
      split
      · exact ⟨_, rfl⟩
      · have e : nextDivisor s n 2 = if 3 > s then n else 3 := by unfold nextDivisor; rfl
        rw [e]
        split
        · exact ⟨n, findDivisor_self⟩
        · exact findDivisor_odd (by omega) (by omega) (by omega)
    · exact findDivisor_odd (by omega) h4 (by omega)

theorem factorLoop_spec {s : ℕ} {room n p : ℕ} (hn : 0 < n) (hlt : n < 2 ^ room) (hr : 0 < room) (hp : 2 ≤ p) :
    ∃ fs, factorLoop s room n p = some fs ∧ Stages n fs ∧ fs.length ≤ room ∧ (2 ≤ n → ∀ x ∈ fs, 2 ≤ x.1) := by
  induction room generalizing n p with
  | zero => omega
  | succ room ih =>
    obtain ⟨q, hq⟩ := findDivisor_terminates (s := s) (n := n) hp
    have hdvd : q ∣ n := Nat.dvd_of_mod_eq_zero (findDivisor_some hq)
    have hqpos : 0 < q := Nat.pos_of_dvd_of_pos hdvd hn
    have hmul : n = q * (n / q) := (Nat.mul_div_cancel' hdvd).symm
    have hmpos : 0 < n / q := Nat.div_pos (Nat.le_of_dvd hn hdvd) hqpos
    unfold factorLoop
    rw [hq]
    simp only [Option.bind_eq_bind, Option.bind_some]
    by_cases hgt : n / q > 1
    · have hn2 : 2 ≤ n := by
        have := Nat.div_le_self n q
        omega
      have hq2 := findDivisor_ge hn2 hp hq
      have hhalf : n / q < 2 ^ room := by
        have : 2 * (n / q) ≤ q * (n / q) := Nat.mul_le_mul_right _ hq2
        rw [Nat.pow_succ] at hlt
        omega
      have hroom : 0 < room := by
        rcases Nat.eq_zero_or_pos room with rfl | h
        · rw [Nat.pow_zero] at hhalf; omega
        · exact h
      obtain ⟨fs, h1, h2, h3, h4⟩ := ih hmpos hhalf hroom hq2
      rw [if_pos hgt, h1]
      refine ⟨_, rfl, ⟨hqpos, hmpos, hmul, ?_⟩, by simpa using h3, ?_⟩
      · rw [if_neg (by omega)]; exact h2
      · intro _ x hx
        rcases List.mem_cons.mp hx with rfl | hx
        · exact hq2
        · exact h4 (by omega) x hx
    · rw [if_neg hgt]
      refine ⟨_, rfl, ⟨hqpos, hmpos, hmul, ?_⟩, by simp, ?_⟩
      · rw [if_pos (by omega)]
      · intro hn2 x hx
        rw [List.mem_singleton] at hx
        subst hx
        exact findDivisor_ge hn2 hp hq

/-- `kf_factor` succeeds on every positive length below 2^32 and produces a factor table. -/
theorem kfFactor_spec {n : ℕ} (hn : 0 < n) (hlt : n < 2 ^ 32) :
    ∃ fs, kfFactor n = some fs ∧ Stages n fs ∧ fs.length ≤ MAXFACTORS ∧ (2 ≤ n → ∀ x ∈ fs, 2 ≤ x.1) :=
  factorLoop_spec hn hlt (by decide) (by omega)

end Verif
