import Verif.Proofs.Tri
import Verif.Spec.Reader

/-! Accounting for blocks and streams. -/

namespace Verif

theorem Own.init {F : Prop} {w : World} (h : w.WF) (hF : ∀ j, w.sched j = false → F) : Own F w [] [] w where
  base_wf := h
  next := le_rfl
  nodup := List.nodup_nil
  new := by simp
  live := by simp
  live_nodup := h.nodup
  snodup := List.nodup_nil
  snew := by simp
  files := by simp
  files_nodup := h.files_nodup
  sched := hF

theorem Own.perm {F : Prop} {base w : World} {L L' S S' : List ℕ} (h : Own F base L S w) (hp : L.Perm L') (hq : S.Perm S') :
    Own F base L' S' w :=
  { h with
    nodup := hp.nodup_iff.mp h.nodup
    new := fun b hb => h.new b (hp.mem_iff.mpr hb)
    live := fun b => by rw [h.live b, hp.mem_iff]
    snodup := hq.nodup_iff.mp h.snodup
    snew := fun b hb => h.snew b (hq.mem_iff.mpr hb)
    files := fun b => by rw [h.files b, hq.mem_iff] }

theorem Own.wf {F : Prop} {base w : World} {L S : List ℕ} (h : Own F base L S w) : w.WF where
  live_lt := by
    intro b hb
    rcases (h.live b).mp hb with h1 | h1
    · exact lt_of_lt_of_le (h.base_wf.live_lt b h1) h.next
    · exact (h.new b h1).2
  files_lt := by
    intro b hb
    rcases (h.files b).mp hb with h1 | h1
    · exact lt_of_lt_of_le (h.base_wf.files_lt b h1) h.next
    · exact (h.snew b h1).2
  nodup := h.live_nodup
  files_nodup := h.files_nodup

/-- The base of `Rel` for a state in which streams are open. -/
def World.at (base w : World) : World := { base with files := w.files, next := w.next }

theorem Own.rel {F : Prop} {base w : World} {L S : List ℕ} (h : Own F base L S w) : Rel F (base.at w) L w where
  base_wf :=
    { live_lt := fun b hb => lt_of_lt_of_le (h.base_wf.live_lt b hb) h.next
      files_lt := h.wf.files_lt
      nodup := h.base_wf.nodup
      files_nodup := h.files_nodup }
  next := le_rfl
  files := rfl
  nodup := h.nodup
  new := h.new
  live := h.live
  live_nodup := h.live_nodup
  sched := h.sched

theorem Own.ofRel {F : Prop} {base w w' : World} {L L' S : List ℕ} (h : Own F base L S w) (r : Rel F (base.at w) L' w') :
    Own F base L' S w' where
  base_wf := h.base_wf
  next := le_trans h.next r.next
  nodup := r.nodup
  new := r.new
  live := r.live
  live_nodup := r.live_nodup
  snodup := h.snodup
  snew := fun b hb => ⟨(h.snew b hb).1, lt_of_lt_of_le (h.snew b hb).2 r.next⟩
  files := fun b => by rw [r.files]; exact h.files b
  files_nodup := by rw [r.files]; exact h.files_nodup
  sched := r.sched

namespace Act
variable {α β : Type} {U F : Prop} {L S : List ℕ}

theorem pure {a : α} {Q : α → List ℕ → List ℕ → Prop} (h : Q a L S) : Act U F L S (Pure.pure a : M α) Q :=
  fun _ w hw => Or.inr ⟨a, w, L, S, rfl, hw, h⟩

theorem bind {m : M α} {f : α → M β} {P : α → List ℕ → List ℕ → Prop} {Q : β → List ℕ → List ℕ → Prop}
    (hm : Act U F L S m P) (hf : ∀ a L' S', P a L' S' → Act U F L' S' (f a) Q) : Act U F L S (m >>= f) Q := by
  intro base w hw
  rcases hm base w hw with ⟨h1, u⟩ | ⟨a, w1, L1, S1, e1, r1, p1⟩
  · exact Or.inl ⟨M.bind_none h1, u⟩
  · rcases hf a L1 S1 p1 base w1 r1 with ⟨h2, u⟩ | ⟨b, w2, L2, S2, e2, r2, q2⟩
    · exact Or.inl ⟨by rw [M.bind_some e1, h2], u⟩
    · exact Or.inr ⟨b, w2, L2, S2, by rw [M.bind_some e1, e2], r2, q2⟩

theorem mono {m : M α} {P Q : α → List ℕ → List ℕ → Prop} (hm : Act U F L S m P) (h : ∀ a L' S', P a L' S' → Q a L' S') :
    Act U F L S m Q := by
  intro base w hw
  rcases hm base w hw with h1 | ⟨a, w1, L1, S1, e1, r1, p1⟩
  · exact Or.inl h1
  · exact Or.inr ⟨a, w1, L1, S1, e1, r1, h _ _ _ p1⟩

theorem weaken {U' F' : Prop} {m : M α} {P : α → List ℕ → List ℕ → Prop} (hm : Act U F L S m P) (hU : U → U') (hF : F' ↔ F) :
    Act U' F' L S m P := by
  have : F' = F := propext hF
  subst this
  intro base w hw
  rcases hm base w hw with ⟨h1, h2⟩ | h1
  · exact Or.inl ⟨h1, hU h2⟩
  · exact Or.inr h1

theorem perm {m : M α} {Q : α → List ℕ → List ℕ → Prop} {L' S' : List ℕ} (hp : L.Perm L') (hq : S.Perm S')
    (hm : Act U F L' S' m Q) : Act U F L S m Q :=
  fun base w hw => hm base w (hw.perm hp hq)

/-- A computation that does not touch streams. -/
theorem ofTri {m : M α} {Q : α → List ℕ → Prop} (h : Tri F L m Q) : Act U F L S m (fun a L' S' => S' = S ∧ Q a L') := by
  intro base w hw
  obtain ⟨a, w', L', e, r, q⟩ := h _ w hw.rel
  exact Or.inr ⟨a, w', L', S, e, hw.ofRel r, rfl, q⟩

theorem lift {o : Option α} {Q : α → List ℕ → List ℕ → Prop} (hn : o = none → U) (h : ∀ a, o = some a → Q a L S) :
    Act U F L S (M.lift o) Q := by
  intro base w hw
  cases o with
  | none => exact Or.inl ⟨rfl, hn rfl⟩
  | some a => exact Or.inr ⟨a, w, L, S, rfl, hw, h a rfl⟩

theorem need {o : Option α} {a : α} {Q : α → List ℕ → List ℕ → Prop} (ho : o = some a) (h : Q a L S) :
    Act U F L S (Verif.need o) Q := lift (by simp [ho]) (by intro b hb; rw [ho] at hb; cases hb; exact h)

theorem touch {b : ℕ} (hb : b ∈ L) : Act U F L S (Verif.touch b) (fun _ L' S' => L' = L ∧ S' = S) :=
  (ofTri (Tri.touch hb)).mono (fun _ _ _ h => ⟨h.2, h.1⟩)

theorem malloc : Act U F L S Verif.malloc
    (fun r L' S' => S' = S ∧ ((r = none ∧ L' = L ∧ F) ∨ ∃ b, r = some b ∧ L' = b :: L)) := ofTri Tri.malloc

theorem free {b : ℕ} {R : List ℕ} (hp : L.Perm (b :: R)) : Act U F L S (Verif.free (some b)) (fun _ L' S' => L' = R ∧ S' = S) :=
  (ofTri (Tri.free hp)).mono (fun _ _ _ h => ⟨h.2, h.1⟩)

theorem freeOpt {o : Option ℕ} {R : List ℕ} (hp : L.Perm (o.toList ++ R)) :
    Act U F L S (Verif.free o) (fun _ L' S' => L' = R ∧ S' = S) :=
  (ofTri (Tri.freeOpt hp)).mono (fun _ _ _ h => ⟨h.2, h.1⟩)

theorem realloc {b : ℕ} {R : List ℕ} (hp : L.Perm (b :: R)) : Act U F L S (Verif.realloc b)
    (fun r L' S' => S' = S ∧ ((r = none ∧ L' = L ∧ F) ∨ ∃ b', r = some b' ∧ L' = b' :: R)) := by
  intro base w hw
  have hb : b ∈ w.live := (hw.live b).mpr (Or.inr (hp.mem_iff.mpr (by simp)))
  by_cases hs : w.sched 0 = true
  · have hw' := hw.perm hp (List.Perm.refl S)
    have hnd := List.nodup_cons.mp hw'.nodup
    have hnb := (hw'.new b (by simp))
    refine Or.inr ⟨some w.next, { w with live := w.next :: w.live.erase b, next := w.next + 1, sched := Verif.advance w.sched },
      w.next :: R, S, ?_, ?_, rfl, Or.inr ⟨_, rfl, rfl⟩⟩
    · unfold Verif.realloc; rw [if_pos hb, if_pos hs]
    · exact
        { base_wf := hw.base_wf
          next := Nat.le_succ_of_le hw.next
          nodup := List.nodup_cons.mpr ⟨fun h => absurd (hw'.new _ (List.mem_cons_of_mem _ h)).2 (lt_irrefl _), hnd.2⟩
          new := by
            intro x hx
            rcases List.mem_cons.mp hx with rfl | hx
            · exact ⟨fun h => absurd (lt_of_lt_of_le (hw.base_wf.live_lt _ h) hw.next) (lt_irrefl _), Nat.lt_succ_self _⟩
            · have := hw'.new x (List.mem_cons_of_mem _ hx); exact ⟨this.1, Nat.lt_succ_of_lt this.2⟩
          live := by
            intro x
            show x ∈ w.next :: w.live.erase b ↔ _
            rw [List.mem_cons, hw.live_nodup.mem_erase_iff, hw'.live x, List.mem_cons, List.mem_cons]
            constructor
            · rintro (h | ⟨h1, h2 | h2 | h2⟩)
              · exact Or.inr (Or.inl h)
              · exact Or.inl h2
              · exact absurd h2 h1
              · exact Or.inr (Or.inr h2)
            · rintro (h | h | h)
              · refine Or.inr ⟨?_, Or.inl h⟩
                rintro rfl
                exact hnb.1 h
              · exact Or.inl h
              · refine Or.inr ⟨?_, Or.inr (Or.inr h)⟩
                rintro rfl
                exact hnd.1 h
          live_nodup := List.nodup_cons.mpr
            ⟨fun h => absurd (hw.wf.live_lt _ (List.mem_of_mem_erase h)) (lt_irrefl _), hw.live_nodup.erase b⟩
          snodup := hw.snodup
          snew := fun x hx => ⟨(hw.snew x hx).1, Nat.lt_succ_of_lt (hw.snew x hx).2⟩
          files := hw.files
          files_nodup := hw.files_nodup
          sched := fun j hj => hw.sched (j + 1) hj }
  · refine Or.inr ⟨none, { w with sched := Verif.advance w.sched }, L, S, ?_, ?_, rfl,
      Or.inl ⟨rfl, rfl, hw.sched 0 (by simpa using hs)⟩⟩
    · unfold Verif.realloc; rw [if_pos hb, if_neg hs]
    · exact { hw with sched := fun j hj => hw.sched (j + 1) hj }

end Act

namespace Act
variable {α β : Type} {U F : Prop} {L S : List ℕ}

theorem openFile {fs : Fs} {name : List UInt8} : Act U F L S (Verif.openFile fs name)
    (fun r L' S' => L' = L ∧
      ((∃ e : ℕ, r = .inl (-(e + 1 : ℤ)) ∧ S' = S ∧ name ≠ cs "-" ∧ fs.fopen name = .inl e) ∨
       ∃ f d k, r = .inr f ∧ fs.Holds name (d, k) ∧ f.st = ⟨d, 0, k⟩ ∧ S' = f.owned ++ S)) := by
  intro base w hw
  right
  by_cases hn : name = cs "-"
  · refine ⟨.inr ⟨none, ⟨fs.stdin.1, 0, fs.stdin.2⟩⟩, w, L, S, ?_, hw, rfl,
      Or.inr ⟨_, _, _, rfl, Or.inl ⟨hn, rfl⟩, rfl, rfl⟩⟩
    unfold Verif.openFile; rw [if_pos hn]
  · cases hf : fs.fopen name with
    | inl e =>
      refine ⟨.inl (-(e + 1 : ℤ)), w, L, S, ?_, hw, rfl, Or.inl ⟨e, rfl, rfl, hn, rfl⟩⟩
      unfold Verif.openFile; rw [if_neg hn, hf]
    | inr r =>
      obtain ⟨d, k⟩ := r
      refine ⟨.inr ⟨some w.next, ⟨d, 0, k⟩⟩, { w with files := w.next :: w.files, next := w.next + 1 }, L, w.next :: S, ?_, ?_,
        rfl, Or.inr ⟨_, d, k, rfl, Or.inr ⟨hn, hf⟩, rfl, rfl⟩⟩
      · unfold Verif.openFile; rw [if_neg hn, hf]
      · exact
          { base_wf := hw.base_wf
            next := Nat.le_succ_of_le hw.next
            nodup := hw.nodup
            new := fun x hx => ⟨(hw.new x hx).1, Nat.lt_succ_of_lt (hw.new x hx).2⟩
            live := hw.live
            live_nodup := hw.live_nodup
            snodup := List.nodup_cons.mpr ⟨fun h => absurd (hw.snew _ h).2 (lt_irrefl _), hw.snodup⟩
            snew := by
              intro x hx
              rcases List.mem_cons.mp hx with rfl | hx
              · exact ⟨fun h => absurd (lt_of_lt_of_le (hw.base_wf.files_lt _ h) hw.next) (lt_irrefl _), Nat.lt_succ_self _⟩
              · exact ⟨(hw.snew x hx).1, Nat.lt_succ_of_lt (hw.snew x hx).2⟩
            files := by
              intro x
              show x ∈ w.next :: w.files ↔ _
              rw [List.mem_cons, hw.files x, List.mem_cons]; tauto
            files_nodup := List.nodup_cons.mpr ⟨fun h => absurd (hw.wf.files_lt _ h) (lt_irrefl _), hw.files_nodup⟩
            sched := hw.sched }

theorem closeFile {f : File} {R : List ℕ} (hp : S.Perm (f.owned ++ R)) :
    Act U F L S (Verif.closeFile f) (fun _ L' S' => L' = L ∧ S' = R) := by
  intro base w hw
  right
  have hw' := hw.perm (List.Perm.refl L) hp
  obtain ⟨id, st⟩ := f
  cases id with
  | none => exact ⟨(), w, L, R, rfl, hw', rfl, rfl⟩
  | some b =>
    have hw' : Own F base L (b :: R) w := hw'
    have hb : b ∈ w.files := (hw'.files b).mpr (Or.inr (by simp))
    have hnd := List.nodup_cons.mp hw'.snodup
    refine ⟨(), { w with files := w.files.erase b }, L, R, ?_, ?_, rfl, rfl⟩
    · unfold Verif.closeFile; simp only; rw [if_pos hb]
    · exact
        { base_wf := hw.base_wf
          next := hw.next
          nodup := hw.nodup
          new := hw.new
          live := hw.live
          live_nodup := hw.live_nodup
          snodup := hnd.2
          snew := fun x hx => hw'.snew x (List.mem_cons_of_mem _ hx)
          files := by
            intro x
            show x ∈ w.files.erase b ↔ _
            rw [hw.files_nodup.mem_erase_iff, hw'.files x, List.mem_cons]
            have hnew := (hw'.snew b (by simp)).1
            constructor
            · rintro ⟨h1, h2 | h2 | h2⟩
              · exact Or.inl h2
              · exact absurd h2 h1
              · exact Or.inr h2
            · rintro (h2 | h2)
              · refine ⟨?_, Or.inl h2⟩
                rintro rfl
                exact hnew h2
              · refine ⟨?_, Or.inr (Or.inr h2)⟩
                rintro rfl
                exact hnd.1 h2
          files_nodup := hw.files_nodup.erase b
          sched := hw.sched }

theorem touchFile {f : File} (hf : ∀ x ∈ f.owned, x ∈ S) : Act U F L S (Verif.touchFile f) (fun _ L' S' => L' = L ∧ S' = S) := by
  intro base w hw
  right
  refine ⟨(), w, L, S, ?_, hw, rfl, rfl⟩
  obtain ⟨id, st⟩ := f
  cases id with
  | none => rfl
  | some b =>
    unfold Verif.touchFile; simp only
    rw [if_pos ((hw.files b).mpr (Or.inr (hf b (by simp [File.owned]))))]

end Act

/-- Nothing new is left: blocks and streams are what they were. -/
theorem Own.same {F : Prop} {base w : World} (h : Own F base [] [] w) :
    (∀ b, b ∈ w.live ↔ b ∈ base.live) ∧ (∀ b, b ∈ w.files ↔ b ∈ base.files) :=
  ⟨fun b => by rw [h.live b]; simp, fun b => by rw [h.files b]; simp⟩

end Verif
