import Verif.Proofs.Wild

/-! Seeking in a Y4M stream is reading, whatever the file. -/

namespace Verif

open Spec

variable {s : Sys} {F : Prop} {w h : ℕ}

theorem y4mSkips_same {x y : Y4mCtx} (h1 : x.ySize = y.ySize) (h2 : x.uvSize = y.uvSize) (h3 : x.seekable = y.seekable) (k : ℕ) :
    ∀ {i : ℕ} {st : Stream} {calls : List ℕ}, y4mSkips s x true k i st calls = y4mSkips s y true k i st calls := by
  induction k with
  | zero => intros; rfl
  | succ k ih => intro i st calls; unfold y4mSkips; simp only [h1, h2, h3, ih]

/-- If the rest of a frame can be skipped after its luma was read, its luma could have been skipped. -/
theorem skipBy_before {seek : Bool} {st : Stream} {a b : ℕ} (ha : a ≤ st.rest.length) (h : (skipBy s seek (st.advance a) b).1 = 0) :
    skipBy s seek st a = (RDEOK, st.advance a) := by
  unfold skipBy at h ⊢
  cases seek with
  | false => simp only [Bool.false_eq_true, if_false]; rw [if_pos ha]
  | true =>
    simp only [if_true] at h ⊢
    by_cases hc : (st.advance a).seekable = true ∧ (st.advance a).pos + b ≤ s.cfg.longMax
    · have h2 : st.pos + a + b ≤ s.cfg.longMax := hc.2
      rw [if_pos ⟨hc.1, by omega⟩]
    · rw [if_neg hc] at h
      have : -((s.env.seekErrno : ℤ) + 1) = 0 := h
      omega

/-- Frames that can be read can be skipped, with the same effect. -/
theorem y4m_skip_read {k : ℕ} : ∀ {x : Y4mCtx} {x' : Ctx} {obs : List IObs} {i : ℕ} {calls : List ℕ},
    Runs s w h F (.y4m x) (List.replicate k .read) obs x' → (∀ y ∈ obs, y.got = true) →
    ∃ st', x' = .y4m { x with f := { x.f with st := st' } } ∧
      y4mSkips s x true k i x.f.st calls = (true, RDEOK, calls ++ (List.range k).map (fun a => i + a + 1), st') := by
  induction k with
  | zero =>
    intro x x' obs i calls hr _
    cases hr
    exact ⟨x.f.st, rfl, by simp [y4mSkips]⟩
  | succ k ih =>
    intro x x' obs i calls hr hg
    rw [List.replicate_succ] at hr
    cases hr with
    | @read _ x1 _ _ obs o e d h1 h2 h3 =>
      have hs : o.isSome = true := hg _ (List.mem_cons_self ..)
      simp only [Ctx.step, Option.some.injEq, Prod.mk.injEq] at h1
      obtain ⟨ho, he, rfl⟩ := h1
      have hok : (y4mReads s x (w * h) [] x.f.st).1 = true := by
        by_contra hc
        rw [if_neg hc] at ho
        rw [← ho] at hs
        cases hs
      obtain ⟨st', e1, e2⟩ := ih (i := i + 1) (calls := calls ++ [i + 1]) h3 (fun y hy => hg y (List.mem_cons_of_mem _ hy))
      refine ⟨st', e1, ?_⟩
      have e2 := (y4mSkips_same (s := s) (x := x)
        (y := { x with f := { x.f with st := (y4mReads s x (w * h) [] x.f.st).2.2.2 } }) rfl rfl rfl k).trans e2
      have hh : (y4mFrameHeader x.f.st).1 = true := by
        by_contra hc
        unfold y4mReads at hok
        simp only at hok
        rw [if_neg hc] at hok
        cases hok
      have hl : x.ySize ≤ (y4mFrameHeader x.f.st).2.2.rest.length := by
        by_contra hc
        unfold y4mReads at hok
        simp only at hok
        rw [if_pos hh, if_neg hc] at hok
        cases hok
      have hu : (skipBy s x.seekable ((y4mFrameHeader x.f.st).2.2.advance x.ySize) x.uvSize).1 = 0 := by
        unfold y4mReads at hok
        simp only at hok
        rw [if_pos hh, if_pos hl] at hok
        simpa using hok
      have hst : (y4mReads s x (w * h) [] x.f.st).2.2.2 = (skipBy s x.seekable ((y4mFrameHeader x.f.st).2.2.advance x.ySize) x.uvSize).2 := by
        unfold y4mReads
        simp only
        rw [if_pos hh, if_pos hl]
      rw [hst] at e2
      unfold y4mSkips
      simp only
      rw [if_pos hh, skipBy_before hl hu]
      simp only
      rw [if_pos (show RDEOK = 0 from rfl), if_pos hu]
      simp only [if_true]
      rw [e2, List.range_succ_eq_map]
      simp only [List.map_cons, List.map_map, List.append_assoc, List.singleton_append, Nat.add_zero]
      congr 5
      refine List.map_congr_left (fun a _ => ?_)
      simp only [Function.comp]
      omega

/-- Skipping `j` frames from index `i` is skipping them from index 0, with other numbers reported. -/
theorem y4mSkips_shift {x : Y4mCtx} (j : ℕ) : ∀ {i i' : ℕ} {st : Stream} {calls calls' : List ℕ},
    ∃ r e n st', y4mSkips s x true j i st calls = (r, e, calls ++ (List.range n).map (fun a => i + a + 1), st') ∧
      y4mSkips s x true j i' st calls' = (r, e, calls' ++ (List.range n).map (fun a => i' + a + 1), st') := by
  induction j with
  | zero => intro i i' st calls calls'; exact ⟨true, RDEOK, 0, st, by simp [y4mSkips], by simp [y4mSkips]⟩
  | succ j ih =>
    intro i i' st calls calls'
    unfold y4mSkips
    simp only
    split
    · split
      · split
        · simp only [if_true]
          obtain ⟨r, e, n, st', h1, h2⟩ := ih (i := i + 1) (i' := i' + 1)
            (st := (skipBy s x.seekable (skipBy s x.seekable (y4mFrameHeader st).2.2 x.ySize).2 x.uvSize).2)
            (calls := calls ++ [i + 1]) (calls' := calls' ++ [i' + 1])
          refine ⟨r, e, n + 1, st', ?_, ?_⟩
          · rw [h1, List.range_succ_eq_map]
            simp only [List.map_cons, List.map_map, List.append_assoc, List.singleton_append, Nat.add_zero]
            congr 5
            exact List.map_congr_left (fun a _ => by simp only [Function.comp]; omega)
          · rw [h2, List.range_succ_eq_map]
            simp only [List.map_cons, List.map_map, List.append_assoc, List.singleton_append, Nat.add_zero]
            congr 5
            exact List.map_congr_left (fun a _ => by simp only [Function.comp]; omega)
        · exact ⟨false, (skipBy s x.seekable (skipBy s x.seekable (y4mFrameHeader st).2.2 x.ySize).2 x.uvSize).1, 0,
            (skipBy s x.seekable (skipBy s x.seekable (y4mFrameHeader st).2.2 x.ySize).2 x.uvSize).2, by simp, by simp⟩
      · exact ⟨false, (skipBy s x.seekable (y4mFrameHeader st).2.2 x.ySize).1, 0,
            (skipBy s x.seekable (y4mFrameHeader st).2.2 x.ySize).2, by simp, by simp⟩
    · exact ⟨false, (y4mFrameHeader st).2.1, 0,
            (y4mFrameHeader st).2.2, by simp, by simp⟩

/-- Skipping in two steps. -/
theorem y4mSkips_add {x : Y4mCtx} {j : ℕ} (k : ℕ) : ∀ {i : ℕ} {st st' : Stream} {calls calls' : List ℕ} {e : RDError},
    y4mSkips s x true k i st calls = (true, e, calls', st') → y4mSkips s x true (k + j) i st calls = y4mSkips s x true j (i + k) st' calls' := by
  induction k with
  | zero => intro i st st' calls calls' e h; simp only [y4mSkips] at h; cases h; simp
  | succ k ih =>
    intro i st st' calls calls' e h
    rw [show k + 1 + j = (k + j) + 1 by omega]
    conv_lhs => unfold y4mSkips
    unfold y4mSkips at h
    simp only at h ⊢
    split at h
    · rename_i h1
      rw [if_pos h1]
      split at h
      · rename_i h2
        rw [if_pos h2]
        split at h
        · rename_i h3
          rw [if_pos h3]
          simp only [if_true] at h ⊢
          rw [ih h, Nat.add_assoc, Nat.add_comm 1 k]
        · cases h
      · cases h
    · cases h

theorem runs_y4m {x y : Ctx} {ops : List IOp} {obs : List IObs} (hr : Runs s w h F x ops obs y) : ∀ {x0 : Y4mCtx}, x = .y4m x0 →
    ∃ y0, y = .y4m y0 := by
  induction hr with
  | nil x => intro x0 h; exact ⟨x0, h⟩
  | read h1 _ _ ih =>
    intro x0 h; subst h
    simp only [Ctx.step] at h1
    cases h1
    exact ih rfl
  | seek h1 _ ih =>
    intro x0 h; subst h
    simp only [Ctx.skip] at h1
    cases h1
    exact ih rfl
  | oom _ _ _ ih => exact ih

/-- The calls on a Y4M stream have one outcome. -/
theorem runs_same {x y y' : Ctx} {ops : List IOp} {obs obs' : List IObs} (hr : Runs s w h F x ops obs y) : ∀ {x0 : Y4mCtx}, x = .y4m x0 →
    Runs s w h F x ops obs' y' → List.Forall₂ IObs.SameAs obs obs' ∧ y = y' := by
  induction hr generalizing obs' with
  | nil x => intro x0 _ h; cases h; exact ⟨.nil, rfl⟩
  | @read x x1 x' ops obs o e d h1 h2 h3 ih =>
    intro x0 hx hr'
    cases hr' with
    | @read _ x2 _ _ obs2 o2 e2 d2 g1 g2 g3 =>
      rw [h1] at g1
      cases g1
      obtain ⟨y0, hy⟩ := runs_y4m (.read h1 h2 (.nil _) : Runs s w h F x [.read] _ x1) hx
      obtain ⟨i1, i2⟩ := ih hy g3
      refine ⟨.cons ⟨rfl, rfl, fun ht => ?_⟩ i1, i2⟩
      obtain ⟨f, hf⟩ := Option.isSome_iff_exists.mp ht
      rw [(h2 f hf).1, (g2 f hf).1]
  | @seek x x1 x' ops obs k ret e calls h1 h3 ih =>
    intro x0 hx hr'
    cases hr' with
    | seek g1 g3 =>
      rw [h1] at g1
      cases g1
      obtain ⟨y0, hy⟩ := runs_y4m (.seek h1 (.nil _) : Runs s w h F x [.seek k] _ x1) hx
      obtain ⟨i1, i2⟩ := ih hy g3
      exact ⟨.cons ⟨rfl, rfl, rfl⟩ i1, i2⟩
    | oom g1 g2 g3 => subst hx; exact g2.elim
  | oom h1 h2 h3 ih => intro x0 hx; subst hx; exact h2.elim

theorem Runs.append {x y : Ctx} {a b : List IOp} {obs : List IObs} (hr : Runs s w h F x (a ++ b) obs y) :
    ∃ o1 o2 x1, obs = o1 ++ o2 ∧ Runs s w h F x a o1 x1 ∧ Runs s w h F x1 b o2 y := by
  induction a generalizing x obs with
  | nil => exact ⟨[], obs, x, rfl, .nil x, hr⟩
  | cons op a ih =>
    rw [List.cons_append] at hr
    cases hr with
    | read h1 h2 h3 =>
      obtain ⟨o1, o2, x1, rfl, g1, g2⟩ := ih h3
      exact ⟨_ :: o1, o2, x1, rfl, .read h1 h2 g1, g2⟩
    | seek h1 h3 =>
      obtain ⟨o1, o2, x1, rfl, g1, g2⟩ := ih h3
      exact ⟨_ :: o1, o2, x1, rfl, .seek h1 g1, g2⟩
    | oom h1 h2 h3 =>
      obtain ⟨o1, o2, x1, rfl, g1, g2⟩ := ih h3
      exact ⟨_ :: o1, o2, x1, rfl, .oom h1 h2 g1, g2⟩

theorem Runs.length {x y : Ctx} {ops : List IOp} {obs : List IObs} (hr : Runs s w h F x ops obs y) : obs.length = ops.length := by
  induction hr with
  | nil => rfl
  | read _ _ _ ih => simp [ih]
  | seek _ _ ih => simp [ih]
  | oom _ _ _ ih => simp [ih]

end Verif
