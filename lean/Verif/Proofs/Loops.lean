import Verif.Base.Mem
import Mathlib.Tactic.Linarith
import Mathlib.Tactic.Ring

/-! Reasoning about the loops and the memory monad. -/

namespace Verif

theorem loop_inv {σ : Type} (P : ℕ → σ → Prop) {lo hi : ℕ} {body : ℕ → σ → Option σ} {s : σ} (hle : lo ≤ hi)
    (h0 : P lo s) (hstep : ∀ i s, lo ≤ i → i < hi → P i s → ∃ s', body i s = some s' ∧ P (i + 1) s') :
    ∃ s', loop lo hi body s = some s' ∧ P hi s' := by
  unfold loop
  obtain ⟨d, rfl⟩ := Nat.exists_eq_add_of_le hle
  rw [Nat.add_sub_cancel_left]
  clear hle
  induction d generalizing lo s with
  | zero => exact ⟨s, by simp, by simpa using h0⟩
  | succ d ih =>
    obtain ⟨s1, hs1, hp1⟩ := hstep lo s le_rfl (by omega) h0
    have := ih (lo := lo + 1) (s := s1) hp1 (by
      intro i s hi1 hi2 hp
      exact hstep i s (by omega) (by omega) hp)
    obtain ⟨s2, hs2, hp2⟩ := this
    refine ⟨s2, ?_, ?_⟩
    · rw [List.range'_succ, List.foldlM_cons, hs1]
      exact hs2
    · have e : lo + (d + 1) = lo + 1 + d := by omega
      rw [e]; exact hp2

theorem loop_of_ge {σ : Type} {lo hi : ℕ} {body : ℕ → σ → Option σ} {s : σ} (h : hi ≤ lo) :
    loop lo hi body s = some s := by
  unfold loop
  rw [Nat.sub_eq_zero_of_le h]; simp

theorem loop_succ {σ : Type} {lo hi : ℕ} {body : ℕ → σ → Option σ} {s : σ} (h : lo ≤ hi) :
    loop lo (hi + 1) body s = (loop lo hi body s).bind (body hi) := by
  unfold loop
  rw [Nat.succ_sub h, List.range'_1_concat, List.foldlM_append]
  simp only [List.foldlM_cons, List.foldlM_nil, Nat.add_sub_cancel' h]
  cases List.foldlM (fun s i => body i s) s (List.range' lo (hi - lo)) <;> simp

theorem loop_first {σ : Type} {lo hi : ℕ} {body : ℕ → σ → Option σ} {s : σ} (h : lo < hi) :
    loop lo hi body s = (body lo s).bind (loop (lo + 1) hi body) := by
  unfold loop
  obtain ⟨d, rfl⟩ := Nat.exists_eq_add_of_lt h
  have e1 : lo + d + 1 - lo = d + 1 := by omega
  have e2 : lo + d + 1 - (lo + 1) = d := by omega
  rw [e1, e2, List.range'_succ, List.foldlM_cons]
  rfl

/-- A loop whose body always succeeds is a fold. -/
theorem loop_eq_foldl {σ : Type} {lo hi : ℕ} {body : ℕ → σ → Option σ} {s : σ} (g : ℕ → σ → σ)
    (h : ∀ i s, lo ≤ i → i < hi → body i s = some (g i s)) :
    loop lo hi body s = some ((List.range' lo (hi - lo)).foldl (fun s i => g i s) s) := by
  rcases Nat.lt_or_ge hi lo with hlt | hle
  · rw [loop_of_ge hlt.le, Nat.sub_eq_zero_of_le hlt.le]; simp
  · obtain ⟨d, rfl⟩ := Nat.exists_eq_add_of_le hle
    unfold loop
    rw [Nat.add_sub_cancel_left]
    clear hle
    induction d generalizing lo s with
    | zero => simp
    | succ d ih =>
      rw [List.range'_succ, List.foldlM_cons, h lo s le_rfl (by omega), List.foldl_cons]
      exact ih (lo := lo + 1) (s := g lo s) (by intro i s h1 h2; exact h i s (by omega) (by omega))

/-- Same, when success depends on an invariant of the state. -/
theorem loop_congr {σ : Type} {lo hi : ℕ} {b1 b2 : ℕ → σ → Option σ} {s : σ}
    (h : ∀ i s, lo ≤ i → i < hi → b1 i s = b2 i s) : loop lo hi b1 s = loop lo hi b2 s := by
  unfold loop
  rcases Nat.lt_or_ge hi lo with hlt | hle
  · rw [Nat.sub_eq_zero_of_le hlt.le]; simp
  obtain ⟨d, rfl⟩ := Nat.exists_eq_add_of_le hle
  rw [Nat.add_sub_cancel_left]
  clear hle
  induction d generalizing lo s with
  | zero => simp
  | succ d ih =>
    rw [List.range'_succ, List.foldlM_cons, List.foldlM_cons, h lo s le_rfl (by omega)]
    cases b2 lo s with
    | none => rfl
    | some s1 => exact ih (lo := lo + 1) (s := s1) (by intro i s h1 h2; exact h i s (by omega) (by omega))

theorem idxLoop_eq {σ : Type} {c : Cfg} {lo hi : ℕ} {body : ℕ → σ → Option σ} {s : σ} (h : hi ≤ c.idxMax) :
    idxLoop c lo hi body s = loop lo hi body s := by
  unfold idxLoop; rw [if_pos h]

theorem rd_eq {α : Type} {l : List α} {i : ℕ} (h : i < l.length) : rd l i = some l[i] := by
  unfold rd; exact List.getElem?_eq_getElem h

theorem wr_eq {α : Type} {l : List α} {i : ℕ} {a : α} (h : i < l.length) : wr l i a = some (l.set i a) := by
  unfold wr; rw [if_pos h]

theorem Cfg.sz_eq {c : Cfg} {n : ℕ} (h : n ≤ c.sizeMax) : c.sz n = n := Nat.mod_eq_of_lt (by omega)
theorem Cfg.idx_eq {c : Cfg} {n : ℕ} (h : n ≤ c.idxMax) : c.idx n = n := Nat.mod_eq_of_lt (by omega)
theorem Cfg.stor_eq {c : Cfg} {n : ℕ} (h : n ≤ c.storMax) : c.stor n = n := Nat.mod_eq_of_lt (by omega)
theorem Cfg.szSub_eq {c : Cfg} {a b : ℕ} (h : b ≤ a) (ha : a ≤ c.sizeMax) : c.szSub a b = a - b := by
  unfold Cfg.szSub
  rw [Nat.mod_eq_of_lt (show b < c.sizeMax + 1 by omega)]
  have : a + (c.sizeMax + 1) - b = (a - b) + (c.sizeMax + 1) := by omega
  rw [this, Nat.add_mod_right]; exact Nat.mod_eq_of_lt (by omega)
theorem Cfg.idxSub_eq {c : Cfg} {a b : ℕ} (h : b ≤ a) (ha : a ≤ c.idxMax) : c.idxSub a b = a - b := by
  unfold Cfg.idxSub
  rw [Nat.mod_eq_of_lt (show b < c.idxMax + 1 by omega)]
  have : a + (c.idxMax + 1) - b = (a - b) + (c.idxMax + 1) := by omega
  rw [this, Nat.add_mod_right]; exact Nat.mod_eq_of_lt (by omega)

/-- In-place update of a whole array by a loop over its positions. -/
theorem loop_set_all {α : Type} {body : ℕ → List α → Option (List α)} {lo hi : ℕ} {l : List α} (g : ℕ → α → α)
    (hlen : l.length = hi - lo)
    (h : ∀ x (l' : List α) a, lo ≤ x → x < hi → l'.length = hi - lo → l'[x - lo]? = some a →
        body x l' = some (l'.set (x - lo) (g x a))) :
    loop lo hi body l = some (l.mapIdx (fun k a => g (lo + k) a)) := by
  rcases Nat.lt_or_ge hi lo with hlt | hle
  · rw [loop_of_ge hlt.le]
    have : l = [] := List.length_eq_zero_iff.mp (by omega)
    subst this; rfl
  obtain ⟨l2, h1, h2⟩ := loop_inv
    (P := fun i (l' : List α) => l' = l.mapIdx (fun k a => if lo + k < i then g (lo + k) a else a))
    (body := body) (s := l) hle
    (by
      apply List.ext_getElem?
      intro k
      rw [List.getElem?_mapIdx]
      cases hk : l[k]? with
      | none => rfl
      | some a => simp)
    (by
      intro i l' hlo hhi hP
      have hk : i - lo < l.length := by omega
      refine ⟨_, h i l' (l[i - lo]) hlo hhi (by rw [hP]; simpa using hlen) ?_, ?_⟩
      · rw [hP, List.getElem?_mapIdx, List.getElem?_eq_getElem hk]
        simp; omega
      · apply List.ext_getElem?
        intro k
        rw [List.getElem?_set, List.getElem?_mapIdx, hP, List.getElem?_mapIdx]
        by_cases hki : i - lo = k
        · subst hki
          have e : lo + (i - lo) = i := by omega
          simp [hk, e]
        · rw [if_neg hki]
          cases l[k]? with
          | none => rfl
          | some a =>
            simp only [Option.map_some]
            congr 1
            by_cases h1 : lo + k < i
            · rw [if_pos h1, if_pos (by omega)]
            · rw [if_neg h1, if_neg (by omega)])
  rw [h1, h2]
  congr 1
  apply List.ext_getElem?
  intro k
  rw [List.getElem?_mapIdx, List.getElem?_mapIdx]
  rcases Nat.lt_or_ge k l.length with hk | hk
  · rw [List.getElem?_eq_getElem hk]
    simp; omega
  · rw [List.getElem?_eq_none hk]; rfl

end Verif
