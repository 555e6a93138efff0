import Verif.Proofs.Temp

/-! Heap accounting: triples that track which blocks have been allocated since a base state. -/

namespace Verif

/-- In world `w`, the live blocks are those of `base` and the blocks `L`, which are distinct and not in `base`.
`F` holds if any allocation from now on may fail. -/
structure Rel (F : Prop) (base : World) (L : List ℕ) (w : World) : Prop where
  base_wf : base.WF
  next : base.next ≤ w.next
  files : w.files = base.files
  nodup : L.Nodup
  new : ∀ b ∈ L, b ∉ base.live ∧ b < w.next
  live : ∀ b, b ∈ w.live ↔ b ∈ base.live ∨ b ∈ L
  live_nodup : w.live.Nodup
  sched : ∀ j, w.sched j = false → F

theorem Rel.perm {F : Prop} {base w : World} {L L' : List ℕ} (h : Rel F base L w) (hp : L.Perm L') : Rel F base L' w :=
  { h with
    nodup := hp.nodup_iff.mp h.nodup
    new := fun b hb => h.new b (hp.mem_iff.mpr hb)
    live := fun b => by rw [h.live b, hp.mem_iff] }

theorem Rel.init {F : Prop} {w : World} (h : w.WF) (hF : ∀ j, w.sched j = false → F) : Rel F w [] w where
  base_wf := h
  next := le_rfl
  files := rfl
  nodup := List.nodup_nil
  new := by simp
  live := by simp
  live_nodup := h.nodup
  sched := hF

theorem Rel.wf {F : Prop} {base w : World} {L : List ℕ} (h : Rel F base L w) : w.WF where
  live_lt := by
    intro b hb
    rcases (h.live b).mp hb with h1 | h1
    · exact lt_of_lt_of_le (h.base_wf.live_lt b h1) h.next
    · exact (h.new b h1).2
  files_lt := by
    intro b hb
    rw [h.files] at hb
    exact lt_of_lt_of_le (h.base_wf.files_lt b hb) h.next
  nodup := h.live_nodup
  files_nodup := by rw [h.files]; exact h.base_wf.files_nodup

/-- Nothing new is left: the heap is what it was. -/
theorem Rel.live_eq {F : Prop} {base w : World} (h : Rel F base [] w) : ∀ b, b ∈ w.live ↔ b ∈ base.live := by
  intro b; rw [h.live b]; simp

/-- From any state owning `L`, `m` is defined and ends in a state owning some `L'` with `Q result L'`. -/
def Tri {α : Type} (F : Prop) (L : List ℕ) (m : M α) (Q : α → List ℕ → Prop) : Prop :=
  ∀ base w, Rel F base L w → ∃ a w' L', m w = some (a, w') ∧ Rel F base L' w' ∧ Q a L'

namespace Tri
variable {α β : Type} {F : Prop} {L : List ℕ}

theorem pure {a : α} {Q : α → List ℕ → Prop} (h : Q a L) : Tri F L (Pure.pure a : M α) Q :=
  fun _ w hw => ⟨a, w, L, rfl, hw, h⟩

theorem bind {m : M α} {f : α → M β} {P : α → List ℕ → Prop} {Q : β → List ℕ → Prop} (hm : Tri F L m P)
    (hf : ∀ a L', P a L' → Tri F L' (f a) Q) : Tri F L (m >>= f) Q := by
  intro base w hw
  obtain ⟨a, w1, L1, e1, r1, p1⟩ := hm base w hw
  obtain ⟨b, w2, L2, e2, r2, q2⟩ := hf a L1 p1 base w1 r1
  exact ⟨b, w2, L2, by rw [M.bind_some e1, e2], r2, q2⟩

theorem mono {m : M α} {P Q : α → List ℕ → Prop} (hm : Tri F L m P) (h : ∀ a L', P a L' → Q a L') : Tri F L m Q := by
  intro base w hw
  obtain ⟨a, w1, L1, e1, r1, p1⟩ := hm base w hw
  exact ⟨a, w1, L1, e1, r1, h _ _ p1⟩

theorem perm {m : M α} {Q : α → List ℕ → Prop} {L' : List ℕ} (hp : L.Perm L') (hm : Tri F L' m Q) : Tri F L m Q :=
  fun base w hw => hm base w (hw.perm hp)

theorem lift {o : Option α} {a : α} {Q : α → List ℕ → Prop} (ho : o = some a) (h : Q a L) : Tri F L (M.lift o) Q := by
  rw [ho]; exact fun _ w hw => ⟨a, w, L, rfl, hw, h⟩

theorem need {o : Option α} {a : α} {Q : α → List ℕ → Prop} (ho : o = some a) (h : Q a L) : Tri F L (Verif.need o) Q :=
  lift ho h

theorem touch {b : ℕ} (hb : b ∈ L) : Tri F L (Verif.touch b) (fun _ L' => L' = L) := by
  intro base w hw
  refine ⟨(), w, L, ?_, hw, rfl⟩
  unfold Verif.touch; rw [if_pos ((hw.live b).mpr (Or.inr hb))]

theorem malloc : Tri F L Verif.malloc (fun r L' => (r = none ∧ L' = L ∧ F) ∨ ∃ b, r = some b ∧ L' = b :: L) := by
  intro base w hw
  by_cases hs : w.sched 0 = true
  · have hnew : ∀ b ∈ L, b ≠ w.next := fun b hb => by have := (hw.new b hb).2; omega
    refine ⟨some w.next, { w with live := w.next :: w.live, next := w.next + 1, sched := advance w.sched },
      w.next :: L, ?_, ?_, Or.inr ⟨_, rfl, rfl⟩⟩
    · unfold Verif.malloc; rw [if_pos hs]
    · exact
        { base_wf := hw.base_wf
          next := Nat.le_succ_of_le hw.next
          files := hw.files
          nodup := List.nodup_cons.mpr ⟨fun h => hnew _ h rfl, hw.nodup⟩
          new := by
            intro b hb
            rcases List.mem_cons.mp hb with rfl | hb
            · exact ⟨fun h => absurd (lt_of_lt_of_le (hw.base_wf.live_lt _ h) hw.next) (lt_irrefl _), Nat.lt_succ_self _⟩
            · have := hw.new b hb; exact ⟨this.1, Nat.lt_succ_of_lt this.2⟩
          live := by
            intro b
            simp only [List.mem_cons, hw.live b]
            tauto
          live_nodup := List.nodup_cons.mpr ⟨fun h => absurd (hw.wf.live_lt _ h) (lt_irrefl _), hw.live_nodup⟩
          sched := fun j hj => hw.sched (j + 1) hj }
  · refine ⟨none, { w with sched := advance w.sched }, L, ?_, ?_, Or.inl ⟨rfl, rfl, hw.sched 0 (by simpa using hs)⟩⟩
    · unfold Verif.malloc; rw [if_neg hs]
    · exact { hw with sched := fun j hj => hw.sched (j + 1) hj }

theorem calloc {c : Cfg} {n size : ℕ} (hF : ¬ n * size ≤ c.sizeMax → F) :
    Tri F L (Verif.calloc c n size) (fun r L' => (r = none ∧ L' = L ∧ F) ∨ ∃ b, r = some b ∧ L' = b :: L) := by
  by_cases h : n * size ≤ c.sizeMax
  · have : Verif.calloc c n size = Verif.malloc := by funext w; unfold Verif.calloc; rw [if_pos h]
    rw [this]; exact malloc
  · intro base w hw
    refine ⟨none, { w with sched := advance w.sched }, L, ?_, ?_, Or.inl ⟨rfl, rfl, hF h⟩⟩
    · unfold Verif.calloc; rw [if_neg h]
    · exact { hw with sched := fun j hj => hw.sched (j + 1) hj }

theorem free {b : ℕ} {R : List ℕ} (hp : L.Perm (b :: R)) : Tri F L (Verif.free (some b)) (fun _ L' => L' = R) := by
  intro base w hw
  have hw' := hw.perm hp
  have hb : b ∈ w.live := (hw'.live b).mpr (Or.inr (by simp))
  have hnd := List.nodup_cons.mp hw'.nodup
  refine ⟨(), { w with live := w.live.erase b }, R, ?_, ?_, rfl⟩
  · unfold Verif.free; simp only; rw [if_pos hb]
  · exact
      { base_wf := hw.base_wf
        next := hw.next
        files := hw.files
        nodup := hnd.2
        new := fun x hx => hw'.new x (List.mem_cons_of_mem _ hx)
        live := by
          intro x
          show x ∈ w.live.erase b ↔ _
          rw [hw.live_nodup.mem_erase_iff, hw'.live x]
          have hnew := (hw'.new b (by simp)).1
          constructor
          · rintro ⟨h1, h2 | h2⟩
            · exact Or.inl h2
            · rcases List.mem_cons.mp h2 with h2 | h2
              · exact absurd h2 h1
              · exact Or.inr h2
          · rintro (h2 | h2)
            · refine ⟨?_, Or.inl h2⟩
              rintro rfl
              exact hnew h2
            · refine ⟨?_, Or.inr (List.mem_cons_of_mem _ h2)⟩
              rintro rfl
              exact hnd.1 h2
        live_nodup := hw.live_nodup.erase b
        sched := hw.sched }

theorem freeOpt {o : Option ℕ} {R : List ℕ} (hp : L.Perm (o.toList ++ R)) :
    Tri F L (Verif.free o) (fun _ L' => L' = R) := by
  cases o with
  | none => exact perm hp (fun _ w hw => ⟨(), w, R, rfl, hw, rfl⟩)
  | some b => exact free hp

/-- A computation that works in scratch memory only. -/
theorem ofTemp {m : M α} {P : α → Prop} {L0 : List ℕ} (h : Temp L0 m P) (hL : ∀ b ∈ L0, b ∈ L) :
    Tri F L m (fun a L' => L' = L ∧ P a) := by
  obtain ⟨g, h1, h2⟩ := h
  intro base w hw
  refine ⟨_, _, L, h2 w (fun b hb => (hw.live b).mpr (Or.inr (hL b hb))), ?_, rfl, h1 _⟩
  exact
    { base_wf := hw.base_wf
      next := le_trans hw.next (Nat.le_add_right _ _)
      files := hw.files
      nodup := hw.nodup
      new := fun b hb => ⟨(hw.new b hb).1, lt_of_lt_of_le (hw.new b hb).2 (Nat.le_add_right _ _)⟩
      live := hw.live
      live_nodup := hw.live_nodup
      sched := fun j hj => hw.sched _ hj }

end Tri

end Verif
