import Verif.Proofs.HeightLemmas
import Verif.Props.History

/-! # What a frame that fails for lack of memory can leave behind (C12) -/

namespace Verif.Props

open Spec

variable {s : Sys} {m : Option Method} {w h : ℕ} {p : Option Params} {ev : List (Call × Obs)} {a a' : Analysis}

/-- **C12** (partial) A frame refused for lack of memory, whatever its size and the method, leaves no trace but in the scores of the
widths: later calls return the same errors and the same heights as if it had never been offered.  Missing: the widths, for which the
statement is false, see `C12_fails`. -/
theorem C12_heights_partial (hs : Build s) (hm : ValidMethod? m) (hp : ValidParams? s.cfg p) (hr : Reach s m w h p ev a)
    {before after : List Call} {r : Call} (hl : ∀ c ∈ before ++ r :: after, Legal a c) {os : List Obs}
    (hrun : run s a (before ++ r :: after) = some (os, a')) (ho : os[before.length]? = some (.analyzed RDENOMEM)) :
    ∃ os' b', run s a (before ++ after) = some (os', b') ∧ List.Forall₂ SameHeights (os.eraseIdx before.length) os' := by
  have hg := (reach_inv hs hm hp hr).good
  obtain ⟨o1, a1, e1, g1, l1, k1⟩ := run_defined hs hg (fun c hc => hl c (List.mem_append_left _ hc))
  rw [run_append] at hrun ⊢
  rw [e1] at hrun ⊢
  simp only [Option.bind_some] at hrun ⊢
  unfold run at hrun
  have lr := k1 r (hl r (by simp))
  obtain ⟨o, a2, e2, hk⟩ := step_cases hs g1 lr
  rw [e2] at hrun
  simp only [Option.bind_eq_bind, Option.bind_some] at hrun
  have hl2 : ∀ c ∈ after, Legal a2 c := fun c hc => hk.legal (k1 c (hl c (by simp [hc])))
  obtain ⟨o3, a3, e3, _, _, _⟩ := run_defined hs (hk.good g1).1 hl2
  rw [e3] at hrun
  simp only [Option.bind_some, Option.pure_def, Option.map_some, Option.some.injEq, Prod.mk.injEq] at hrun
  obtain ⟨rfl, rfl⟩ := hrun
  rw [← l1] at ho
  simp only [le_refl, List.getElem?_append_right, Nat.sub_self, List.getElem?_cons_zero, Option.some.injEq] at ho
  subst ho
  have hE := step_nomem hs g1 lr e2
  obtain ⟨os', b', f1, f2⟩ := run_eqX hs (hk.good g1).1 g1 hE.symm hl2 e3
  refine ⟨o1 ++ os', b', by rw [f1]; rfl, ?_⟩
  rw [← l1]
  simp only [List.eraseIdx_append_of_length_le (Nat.le_refl _), Nat.sub_self, List.eraseIdx_cons_zero]
  exact List.rel_append (List.forall₂_same.mpr (fun o _ => SameHeights.refl o)) f2

/-- The run of `C12_fails`: the second allocation fails, then a retry. -/
example : ∃ os a', run Demo.sys oomAnalysis oomCalls = some (os, a') ∧ os[0]? = some (.analyzed RDENOMEM) ∧
    ∃ os' b', run Demo.sys oomAnalysis oomCalls.tail = some (os', b') ∧ List.Forall₂ SameHeights (os.eraseIdx 0) os' := by
  have h1 : (run Demo.sys oomAnalysis oomCalls).map Prod.fst = some [.analyzed RDENOMEM, .analyzed RDEOK,
      .results RDEOK (some [⟨1, .fin false 2⟩, ⟨3, .fin true (-1)⟩]) 2
        (some [⟨1, .fin false 0⟩, ⟨3, .fin true (-1)⟩]) 2] := by decide +kernel
  rw [Option.map_eq_some_iff] at h1
  obtain ⟨⟨os, a'⟩, e, he⟩ := h1
  have he : os = _ := he
  have ho : os[0]? = some (.analyzed RDENOMEM) := by rw [he]; rfl
  exact ⟨os, a', e, ho, C12_heights_partial (before := []) Demo.sys_build (by rintro q h; cases h; simp [methods, origMethod])
    Demo.params_valid oom_reach oom_legal e ho⟩

end Verif.Props
