import Verif.Model.Analysis
import Verif.Proofs.Loops

/-! Computations that leave the heap as they found it, and whose outcome depends on the allocation schedule alone. -/

namespace Verif

/-- The world after `a` block identifiers and `b` schedule entries have been used up. -/
def World.skip (w : World) (a b : ℕ) : World := { w with next := w.next + a, sched := fun k => w.sched (k + b) }

theorem World.skip_zero (w : World) : w.skip 0 0 = w := rfl

theorem World.skip_skip (w : World) (a b a' b' : ℕ) : (w.skip a b).skip a' b' = w.skip (a + a') (b' + b) := by
  unfold World.skip
  simp only [Nat.add_assoc]

@[simp] theorem World.skip_live (w : World) (a b : ℕ) : (w.skip a b).live = w.live := rfl
@[simp] theorem World.skip_files (w : World) (a b : ℕ) : (w.skip a b).files = w.files := rfl
@[simp] theorem World.skip_sched (w : World) (a b : ℕ) : (w.skip a b).sched = fun k => w.sched (k + b) := rfl

theorem World.WF.skip {w : World} (h : w.WF) (a b : ℕ) : (w.skip a b).WF where
  live_lt := fun x hx => lt_of_lt_of_le (h.live_lt x hx) (Nat.le_add_right _ _)
  files_lt := fun x hx => lt_of_lt_of_le (h.files_lt x hx) (Nat.le_add_right _ _)
  nodup := h.nodup
  files_nodup := h.files_nodup

/-- With the blocks `L` alive, `m` is defined, leaves the same blocks alive, delivers a value with property `P`, and value
and consumption depend on the allocation schedule only. -/
def Temp {α : Type} (L : List ℕ) (m : M α) (P : α → Prop) : Prop :=
  ∃ g : (ℕ → Bool) → α × ℕ × ℕ, (∀ s, P (g s).1) ∧
    ∀ w : World, (∀ b ∈ L, b ∈ w.live) → m w = some ((g w.sched).1, w.skip (g w.sched).2.1 (g w.sched).2.2)

namespace Temp
variable {α β : Type} {L : List ℕ} {P : α → Prop} {Q : β → Prop}

theorem pure {a : α} (h : P a) : Temp L (Pure.pure a : M α) P :=
  ⟨fun _ => (a, 0, 0), fun _ => h, fun _ _ => rfl⟩

theorem lift {o : Option α} {a : α} (ho : o = some a) (h : P a) : Temp L (M.lift o) P :=
  ⟨fun _ => (a, 0, 0), fun _ => h, fun _ _ => by rw [ho]; rfl⟩

theorem touch {b : ℕ} (hb : b ∈ L) : Temp L (Verif.touch b) (fun _ => True) :=
  ⟨fun _ => ((), 0, 0), fun _ => trivial, fun w hw => by unfold Verif.touch; rw [if_pos (hw b hb)]; rfl⟩

theorem need {o : Option α} {a : α} (ho : o = some a) (h : P a) : Temp L (Verif.need o) P := lift ho h

theorem mono {m : M α} {P' : α → Prop} (h : Temp L m P) (hP : ∀ a, P a → P' a) : Temp L m P' := by
  obtain ⟨g, h1, h2⟩ := h
  exact ⟨g, fun s => hP _ (h1 s), h2⟩

theorem bind {m : M α} {f : α → M β} (hm : Temp L m P) (hf : ∀ a, P a → Temp L (f a) Q) : Temp L (m >>= f) Q := by
  classical
  obtain ⟨g, h1, h2⟩ := hm
  choose k hk1 hk2 using hf
  refine ⟨fun s => ((k (g s).1 (h1 s) (fun j => s (j + (g s).2.2))).1,
    (g s).2.1 + (k (g s).1 (h1 s) (fun j => s (j + (g s).2.2))).2.1,
    (k (g s).1 (h1 s) (fun j => s (j + (g s).2.2))).2.2 + (g s).2.2), fun s => hk1 _ (h1 s) _, ?_⟩
  intro w hw
  rw [M.bind_some (h2 w hw), hk2 _ (h1 _) _ (by intro b hb; exact hw b hb), World.skip_skip]
  rfl

/-- `malloc`, a computation, `free`. -/
theorem mallocFree {P : α → Prop} {a : α} {m : M α} (h0 : P a)
    (hm : Temp [] m P) :
    Temp L (do
      match ← malloc with
      | none => return a
      | some b =>
        let r ← m
        free (some b)
        return r) P := by
  obtain ⟨g, h1, h2⟩ := hm
  refine ⟨fun s => if s 0 then ((g (advance s)).1, 1 + (g (advance s)).2.1, (g (advance s)).2.2 + 1) else (a, 0, 1), ?_, ?_⟩
  · intro s; simp only; split
    · exact h1 _
    · exact h0
  · intro w hw
    by_cases hs : w.sched 0 = true
    · have e : malloc w = some (some w.next,
          { w with live := w.next :: w.live, next := w.next + 1, sched := advance w.sched }) := by
        unfold malloc; rw [if_pos hs]
      rw [M.bind_some e]
      simp only
      rw [M.bind_some (h2 _ (by simp))]
      simp only [if_pos hs]
      rw [M.bind_some (a := ()) (w' := (w.skip (1 + (g (advance w.sched)).2.1) ((g (advance w.sched)).2.2 + 1)))]
      · rfl
      · unfold free World.skip advance
        simp only [List.mem_cons, true_or, if_true, List.erase_cons_head]
        simp only [Nat.add_assoc]
    · have e : malloc w = some (none, { w with sched := advance w.sched }) := by
        unfold malloc; rw [if_neg hs]
      rw [M.bind_some e]
      simp only [if_neg hs]
      rfl

theorem weaken {L' : List ℕ} {m : M α} (h : Temp L m P) (hL : ∀ b ∈ L, b ∈ L') : Temp L' m P := by
  obtain ⟨g, h1, h2⟩ := h
  exact ⟨g, h1, fun w hw => h2 w (fun b hb => hw b (hL b hb))⟩

theorem foldlM {σ ι : Type} {P : σ → Prop} {f : σ → ι → M σ} {l : List ι} {s : σ} (h0 : P s)
    (hf : ∀ i ∈ l, ∀ s, P s → Temp L (f s i) P) : Temp L (l.foldlM f s) P := by
  induction l generalizing s with
  | nil => exact Temp.pure h0
  | cons i l ih =>
    rw [List.foldlM_cons]
    exact bind (hf i (by simp) s h0) (fun a ha => ih ha (fun j hj => hf j (by simp [hj])))

theorem collectM {body : ℕ → M (List α)} {ks : List ℕ} {len : ℕ}
    (h : ∀ k ∈ ks, Temp L (body k) (fun l => l.length = len)) :
    Temp L (Verif.collectM body ks) (fun l => l.length = ks.length * len) := by
  induction ks with
  | nil => exact Temp.pure (by simp)
  | cons k ks ih =>
    unfold Verif.collectM
    refine bind (h k (by simp)) (fun a ha => bind (ih (fun j hj => h j (by simp [hj]))) (fun b hb => Temp.pure ?_))
    rw [List.length_append, ha, hb, List.length_cons, Nat.add_mul]; omega

end Temp

end Verif
