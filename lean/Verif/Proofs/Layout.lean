import Verif.Spec.Layout
import Verif.Proofs.Bits
import Mathlib.Data.List.OfFn

/-! Reading numbers, strings and structures back from memory. -/

namespace Verif

open Spec

theorem foldl_bytes (l : List UInt8) (n : ℕ) : l.foldl (fun n d => 256 * n + d.toNat) n = 256 ^ l.length * n + l.foldl (fun n d => 256 * n + d.toNat) 0 := by
  induction l generalizing n with
  | nil => simp
  | cons b l ih =>
    rw [List.foldl_cons, List.foldl_cons, ih, ih (256 * 0 + b.toNat), List.length_cons, pow_succ]
    ring

theorem toUInt8_toNat (n : ℕ) : n.toUInt8.toNat = n % 256 := by simp

/-- The digits of a number, lowest first. -/
theorem foldl_low (v : ℕ) : ∀ n, ((List.range n).map (fun i => (v / 256 ^ i).toUInt8)).reverse.foldl (fun n d => 256 * n + d.toNat) 0 = v % 256 ^ n
  | 0 => by simp [Nat.mod_one]
  | n + 1 => by
    rw [List.range_succ, List.map_append, List.reverse_append]
    simp only [List.map_cons, List.map_nil, List.reverse_cons, List.reverse_nil, List.nil_append, List.cons_append, List.foldl_cons]
    rw [foldl_bytes, foldl_low v n, List.length_reverse, List.length_map, List.length_range, toUInt8_toNat, Nat.pow_succ, Nat.mod_mul]
    ring

theorem mapM_some {α β : Type} {f : α → Option β} {g : α → β} {l : List α} (h : ∀ x ∈ l, f x = some (g x)) : l.mapM f = some (l.map g) := by
  induction l with
  | nil => rfl
  | cons a l ih =>
    rw [List.mapM_cons, h a List.mem_cons_self, ih (fun x hx => h x (List.mem_cons_of_mem _ hx))]
    rfl

theorem mapM_range {α β : Type} {g : α → β} : ∀ {l : List α} {f : ℕ → Option β}, (∀ i r, l[i]? = some r → f i = some (g r)) →
    (List.range l.length).mapM f = some (l.map g)
  | [], f, _ => rfl
  | a :: l, f, h => by
    rw [List.length_cons, List.range_succ_eq_map, List.mapM_cons, h 0 a rfl, List.mapM_map,
      mapM_range (l := l) (f := f ∘ Nat.succ) (fun i r hr => h (i + 1) r (by simpa using hr))]
    rfl

theorem range_flip (n : ℕ) (g : ℕ → UInt8) : ((List.range n).map (fun i => g (n - 1 - i))).reverse = (List.range n).map g := by
  refine List.ext_getElem (by simp) fun i h1 h2 => ?_
  have hi : i < n := by simpa using h2
  rw [List.getElem_reverse, List.getElem_map, List.getElem_map, List.getElem_range, List.getElem_range]
  congr 1
  simp only [List.length_map, List.length_range]
  omega

theorem readNat_holds {m : Mem} {little : Bool} {p n v : ℕ} (h : HoldsNat m little p n v) : readNat m little p n = some v := by
  unfold readNat
  rw [mapM_some (g := fun i => (v / 256 ^ (if little then i else n - 1 - i)).toUInt8) (fun i hi => h.2 i (List.mem_range.mp hi))]
  show some _ = some v
  congr 1
  cases little with
  | true =>
    simp only [if_true]
    rw [foldl_low, Nat.mod_eq_of_lt h.1]
  | false =>
    simp only [Bool.false_eq_true, if_false]
    have := range_flip n (fun i => (v / 256 ^ i).toUInt8)
    rw [← List.reverse_reverse ((List.range n).map (fun i => (v / 256 ^ (n - 1 - i)).toUInt8)), this, foldl_low, Nat.mod_eq_of_lt h.1]

theorem readString_holds {m : Mem} : ∀ (s : List UInt8) (p fuel : ℕ), HoldsString m p s → s.length < fuel → readString m fuel p = some s
  | [], p, fuel, h, hf => by
    obtain ⟨fuel, rfl⟩ : ∃ k, fuel = k + 1 := ⟨fuel - 1, by omega⟩
    have := h.2 0 0 rfl
    simp only [readString, Nat.add_zero] at this ⊢
    rw [this]
    rfl
  | b :: s, p, fuel, h, hf => by
    obtain ⟨fuel, rfl⟩ : ∃ k, fuel = k + 1 := ⟨fuel - 1, by simp at hf; omega⟩
    have h0 := h.2 0 b rfl
    have hb : b ≠ 0 := fun e => h.1 (by simp [e])
    simp only [readString, Nat.add_zero] at h0 ⊢
    rw [h0]
    have ih := readString_holds s (p + 1) fuel ⟨fun e => h.1 (List.mem_cons_of_mem _ e), fun i c hc => by
      rw [Nat.add_assoc, Nat.add_comm 1 i]; exact h.2 (i + 1) c (by simpa using hc)⟩ (by simp at hf; omega)
    simp only [Option.bind_eq_bind, Option.bind_some, if_neg hb, ih]
    rfl

theorem jsInt_holds {m : Mem} {p v : ℕ} (hp : 4 ∣ p) (h : HoldsNat m true p 4 v) (hv : v < 2 ^ 31) : jsInt m p = some (v : ℤ) := by
  unfold jsInt
  rw [Nat.div_mul_cancel hp, readNat_holds h, Option.map_some, if_pos hv]

theorem jsPtr_holds {m : Mem} {p v : ℕ} (hp : 4 ∣ p) (h : HoldsNat m true p 4 v) : jsPtr m p = some v := by
  unfold jsPtr
  rw [Nat.div_mul_cancel hp, readNat_holds h]

theorem jsFloat_holds {m : Mem} {p : ℕ} {x : Fl} (hp : 4 ∣ p) (h : HoldsFloat m true p x) : jsFloat m p = some x := by
  obtain ⟨n, rfl, h⟩ := h
  unfold jsFloat
  rw [Nat.div_mul_cancel hp, readNat_holds h, Option.map_some]

/-- The layouts on the usual platforms. -/
theorem layouts {a : Abi} (ha : Usual a) : fieldAt a pyResolutionFields 0 = 0 ∧ fieldAt a pyResolutionFields 1 = a.size ∧
    structSize a pyResolutionFields = 2 * a.size ∧ fieldAt a pyMethodFields 0 = 0 ∧ fieldAt a pyMethodFields 2 = 2 * a.ptr ∧
    structSize a pyMethodFields = 3 * a.ptr := by
  obtain ⟨size, ptr, little⟩ := a
  obtain ⟨h1, h2⟩ := ha
  simp only at h1 h2
  rcases h1 with rfl | rfl <;> rcases h2 with rfl | rfl <;> cases little <;> decide

end Verif
