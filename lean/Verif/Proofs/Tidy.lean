import Verif.Proofs.Player
import Verif.Spec.External

/-! Identifiers are not used again, and what is dead stays dead. -/

namespace Verif

/-- `m` keeps the world well-formed and makes no old identifier live. -/
def Tidy {α : Type} (m : M α) : Prop :=
  ∀ w a w', w.WF → m w = some (a, w') → w'.WF ∧ w.next ≤ w'.next ∧ ∀ b ∈ w'.live, b ∈ w.live ∨ w.next ≤ b

/-- The block was used and is not live any more. -/
def Dead (b : ℕ) (w : World) : Prop := b ∉ w.live ∧ b < w.next

/-- `m` uses the block. -/
def Deadly {α : Type} (b : ℕ) (m : M α) : Prop := ∀ w : World, w.WF → Dead b w → m w = none

theorem M.pure_inv {α : Type} {a b : α} {w w' : World} (h : (pure a : M α) w = some (b, w')) : a = b ∧ w = w' := by
  cases h; exact ⟨rfl, rfl⟩

theorem Tidy.dead {α : Type} {m : M α} (h : Tidy m) {w w' : World} {a : α} {b : ℕ} (hw : w.WF) (hd : Dead b w)
    (hm : m w = some (a, w')) : Dead b w' := by
  obtain ⟨_, h2, h3⟩ := h w a w' hw hm
  refine ⟨fun hb => ?_, lt_of_lt_of_le hd.2 h2⟩
  rcases h3 b hb with h | h
  · exact hd.1 h
  · exact absurd hd.2 (by omega)

namespace Tidy
variable {α β : Type}

theorem pure (a : α) : Tidy (Pure.pure a : M α) := by
  intro w b w' hw h
  cases h
  exact ⟨hw, le_refl _, fun b hb => Or.inl hb⟩

theorem bind {m : M α} {f : α → M β} (hm : Tidy m) (hf : ∀ a, Tidy (f a)) : Tidy (m >>= f) := by
  intro w b w' hw h
  obtain ⟨a, w1, h1, h2⟩ := M.bind_inv h
  obtain ⟨p1, p2, p3⟩ := hm w a w1 hw h1
  obtain ⟨q1, q2, q3⟩ := hf a w1 b w' p1 h2
  refine ⟨q1, le_trans p2 q2, fun x hx => ?_⟩
  rcases q3 x hx with h | h
  · exact p3 x h
  · exact Or.inr (le_trans p2 h)

theorem lift (o : Option α) : Tidy (M.lift o) := by
  intro w b w' hw h
  cases o with
  | none => cases h
  | some a => cases h; exact ⟨hw, le_refl _, fun b hb => Or.inl hb⟩

theorem ub : Tidy (M.ub : M α) := by
  intro w b w' hw h
  cases h

theorem touch (b : ℕ) : Tidy (Verif.touch b) := by
  intro w _ w' hw h
  unfold Verif.touch at h
  split at h
  · cases h; exact ⟨hw, le_refl _, fun b hb => Or.inl hb⟩
  · cases h

theorem free (o : Option ℕ) : Tidy (Verif.free o) := by
  intro w _ w' hw h
  unfold Verif.free at h
  cases o with
  | none => cases h; exact ⟨hw, le_refl _, fun b hb => Or.inl hb⟩
  | some b =>
    simp only at h
    split at h
    · cases h
      exact ⟨⟨fun x hx => hw.live_lt x (List.mem_of_mem_erase hx), hw.files_lt, hw.nodup.erase b, hw.files_nodup⟩, le_refl _,
        fun x hx => Or.inl (List.mem_of_mem_erase hx)⟩
    · cases h

/-- A new identifier. -/
theorem new {w : World} (hw : w.WF) (sched : ℕ → Bool) :
    World.WF { w with live := w.next :: w.live, next := w.next + 1, sched := sched } where
  live_lt x hx := by
    rcases List.mem_cons.mp hx with rfl | hx
    · exact Nat.lt_succ_self _
    · exact Nat.lt_succ_of_lt (hw.live_lt x hx)
  files_lt x hx := Nat.lt_succ_of_lt (hw.files_lt x hx)
  nodup := List.nodup_cons.mpr ⟨fun h => absurd (hw.live_lt _ h) (lt_irrefl _), hw.nodup⟩
  files_nodup := hw.files_nodup

theorem malloc : Tidy Verif.malloc := by
  intro w _ w' hw h
  unfold Verif.malloc at h
  split at h
  · cases h
    refine ⟨new hw _, Nat.le_succ _, fun x hx => ?_⟩
    rcases List.mem_cons.mp hx with rfl | hx
    · exact Or.inr (le_refl _)
    · exact Or.inl hx
  · cases h
    exact ⟨⟨hw.live_lt, hw.files_lt, hw.nodup, hw.files_nodup⟩, le_refl _, fun b hb => Or.inl hb⟩

theorem enter : Tidy Verif.enter := by
  intro w _ w' hw h
  unfold Verif.enter at h
  cases h
  refine ⟨new hw _, Nat.le_succ _, fun x hx => ?_⟩
  rcases List.mem_cons.mp hx with rfl | hx
  · exact Or.inr (le_refl _)
  · exact Or.inl hx

theorem openFile (fs : Fs) (name : List UInt8) : Tidy (Verif.openFile fs name) := by
  intro w _ w' hw h
  unfold Verif.openFile at h
  split at h
  · cases h; exact ⟨hw, le_refl _, fun b hb => Or.inl hb⟩
  · split at h
    · cases h; exact ⟨hw, le_refl _, fun b hb => Or.inl hb⟩
    · cases h
      refine ⟨⟨fun x hx => Nat.lt_succ_of_lt (hw.live_lt x hx), ?_, hw.nodup, ?_⟩, Nat.le_succ _, fun x hx => Or.inl hx⟩
      · intro x hx
        rcases List.mem_cons.mp hx with rfl | hx
        · exact Nat.lt_succ_self _
        · exact Nat.lt_succ_of_lt (hw.files_lt x hx)
      · exact List.nodup_cons.mpr ⟨fun h => absurd (hw.files_lt _ h) (lt_irrefl _), hw.files_nodup⟩

theorem closeFile (f : File) : Tidy (Verif.closeFile f) := by
  intro w _ w' hw h
  unfold Verif.closeFile at h
  split at h
  · cases h; exact ⟨hw, le_refl _, fun b hb => Or.inl hb⟩
  · split at h
    · cases h
      exact ⟨⟨hw.live_lt, fun x hx => hw.files_lt x (List.mem_of_mem_erase hx), hw.nodup, hw.files_nodup.erase _⟩, le_refl _,
        fun x hx => Or.inl hx⟩
    · cases h

end Tidy

namespace Deadly
variable {α β : Type} {b : ℕ}

theorem touch : Deadly b (Verif.touch b) := fun w _ hd => by unfold Verif.touch; rw [if_neg hd.1]

theorem ub : Deadly b (M.ub : M α) := fun _ _ _ => rfl

theorem first {m : M α} {f : α → M β} (h : Deadly b m) : Deadly b (m >>= f) := fun w hw hd => M.bind_none (h w hw hd)

theorem bind {m : M α} {f : α → M β} (ht : Tidy m) (hf : ∀ a, Deadly b (f a)) : Deadly b (m >>= f) := by
  intro w hw hd
  cases hm : m w with
  | none => exact M.bind_none hm
  | some v =>
    obtain ⟨a, w1⟩ := v
    rw [M.bind_some hm]
    exact hf a w1 (ht w a w1 hw hm).1 (ht.dead hw hd hm)

/-- As `bind`, for the values `m` can have. -/
theorem bind_of {m : M α} {f : α → M β} {P : α → Prop} (ht : Tidy m) (hP : ∀ w a w', w.WF → Dead b w → m w = some (a, w') → P a)
    (hf : ∀ a, P a → Deadly b (f a)) : Deadly b (m >>= f) := by
  intro w hw hd
  cases hm : m w with
  | none => exact M.bind_none hm
  | some v =>
    obtain ⟨a, w1⟩ := v
    rw [M.bind_some hm]
    exact hf a (hP w a w1 hw hd hm) w1 (ht w a w1 hw hm).1 (ht.dead hw hd hm)

end Deadly

/-- A block that has just been freed is dead. -/
theorem free_dead {b : ℕ} {w w' : World} (hw : w.WF) (h : free (some b) w = some ((), w')) : Dead b w' := by
  unfold free at h
  simp only at h
  split at h
  · rename_i hb
    cases h
    exact ⟨fun hx => ((hw.nodup.mem_erase_iff).mp hx).1 rfl, hw.live_lt b hb⟩
  · cases h

end Verif
