import Verif.Model.CObjects
import Verif.Spec.Plenty

/-! The library does not use up memory: where no allocation fails before a call, none fails afterwards. -/

namespace Verif

/-- Memory that suffices for everything still does afterwards. -/
def Lasting {α : Type} (m : M α) : Prop := ∀ w a w', m w = some (a, w') → Plenty w → Plenty w'

namespace Lasting

theorem pure {α : Type} (a : α) : Lasting (Pure.pure a : M α) := by
  intro w a w' e h
  cases e
  exact h

theorem ub {α : Type} : Lasting (M.ub : M α) := by
  intro w a w' e
  cases e

theorem bind {α β : Type} {f : M α} {g : α → M β} (hf : Lasting f) (hg : ∀ a, Lasting (g a)) : Lasting (f >>= g) := by
  intro w b w' e h
  obtain ⟨a, w1, e1, e2⟩ := M.bind_eq_some.mp e
  exact hg a w1 b w' e2 (hf w a w1 e1 h)

theorem lift {α : Type} (x : Option α) : Lasting (M.lift x) := by
  intro w a w' e h
  cases x <;> cases e
  exact h

theorem need {α : Type} (x : Option α) : Lasting (Verif.need x) := lift x

theorem ite {α : Type} {p : Prop} [Decidable p] {f g : M α} (hf : Lasting f) (hg : Lasting g) : Lasting (if p then f else g) := by
  split
  · exact hf
  · exact hg

theorem malloc : Lasting Verif.malloc := by
  intro w a w' e h
  unfold Verif.malloc at e
  split at e <;> cases e <;> exact fun j => h (j + 1)

theorem calloc {c : Cfg} {n z : ℕ} : Lasting (Verif.calloc c n z) := by
  intro w a w' e h
  unfold Verif.calloc at e
  split at e
  · exact malloc w a w' e h
  · cases e
    exact fun j => h (j + 1)

theorem free {p : Option ℕ} : Lasting (Verif.free p) := by
  intro w a w' e h
  unfold Verif.free at e
  split at e
  · cases e
    exact h
  · split at e <;> cases e
    exact h

theorem touch {b : ℕ} : Lasting (Verif.touch b) := by
  intro w a w' e h
  unfold Verif.touch at e
  split at e <;> cases e
  exact h

theorem foldlM {α β : Type} {f : β → α → M β} (hf : ∀ b a, Lasting (f b a)) (l : List α) : ∀ b, Lasting (l.foldlM f b) := by
  induction l with
  | nil => exact fun b => pure b
  | cons a l ih =>
    intro b
    rw [List.foldlM_cons]
    exact bind (hf b a) ih

end Lasting

/-- Follow the structure of a program. -/
macro "lasting" : tactic => `(tactic| repeat' first
  | with_reducible exact Lasting.pure _ | with_reducible exact Lasting.ub | with_reducible exact Lasting.lift _ | with_reducible exact Lasting.need _
  | with_reducible exact Lasting.malloc | with_reducible exact Lasting.calloc | with_reducible exact Lasting.free | with_reducible exact Lasting.touch
  | assumption | with_reducible refine Lasting.bind ?_ (fun _ => ?_) | split)

section kiss

variable {S : Type} {A : Arith S} {c : Cfg} {st : FftCfg}

theorem kfBflyGeneric_lasting {fstride m p : ℕ} {out : List (Cpx S)} : Lasting (kfBflyGeneric A c st fstride m p out) := by
  unfold kfBflyGeneric
  lasting

theorem butterfly_lasting {fstride m p : ℕ} {out : List (Cpx S)} : Lasting (butterfly A c st fstride m p out) := by
  unfold butterfly
  have := @kfBflyGeneric_lasting S A c st fstride m p out
  split <;> first | exact Lasting.lift _ | exact kfBflyGeneric_lasting

theorem collectM_lasting {α : Type} {body : ℕ → M (List α)} (h : ∀ k, Lasting (body k)) (ks : List ℕ) : Lasting (collectM body ks) := by
  induction ks with
  | nil => exact Lasting.pure _
  | cons k ks ih =>
    unfold collectM
    have := h k
    lasting

theorem kfWork_lasting {f : List (Cpx S)} {inStride : ℕ} (l : List (ℕ × ℕ)) : ∀ {off fstride : ℕ}, Lasting (kfWork A c st f inStride l off fstride) := by
  induction l with
  | nil => intro _ _; exact Lasting.ub
  | cons x l ih =>
    intro off fstride
    obtain ⟨p, m⟩ := x
    unfold kfWork
    exact Lasting.ite (Lasting.bind (collectM_lasting (fun _ => Lasting.lift _) _) (fun _ => butterfly_lasting))
      (Lasting.bind (collectM_lasting (fun _ => ih) _) (fun _ => butterfly_lasting))

theorem kissDct_lasting {F0 : List (Cpx S)} {mc sc n length stride dist : ℕ} {f : List S} : Lasting (kissDct A c st F0 mc sc n length stride dist f) := by
  unfold kissDct
  refine Lasting.foldlM (fun f j => ?_) _ _
  unfold dctRow kissFftr kissFft
  refine Lasting.bind (Lasting.lift _) (fun _ => Lasting.ite (Lasting.bind (Lasting.bind (kfWork_lasting _) (fun _ => Lasting.lift _)) (fun _ => Lasting.lift _)) Lasting.ub)

theorem kissTransform_lasting {junk : Cpx S} {p : KissPlan} {f : List S} : Lasting (kissTransform A c junk p f) := by
  unfold kissTransform
  lasting
  all_goals exact kissDct_lasting

theorem kissFreePlan_lasting {p : Option KissPlan} : Lasting (kissFreePlan p) := by
  unfold kissFreePlan
  lasting

theorem kissCreatePlan_lasting {width height : ℕ} : Lasting (kissCreatePlan c width height) := by
  have fail : ∀ {p : Option KissPlan}, Lasting (kissPlanFail p) := fun {p} => Lasting.bind kissFreePlan_lasting (fun _ => Lasting.pure _)
  have arr : ∀ {b z : ℕ}, Lasting (mallocArr c b z) := by
    intro b z
    unfold mallocArr
    lasting
  have alloc : ∀ {n : ℕ}, Lasting (kissFftrAlloc c n) := by
    intro n
    unfold kissFftrAlloc
    lasting
  unfold kissCreatePlan
  simp only
  repeat' first | exact fail | exact arr | exact alloc | lasting

end kiss

variable {s : Sys}

theorem freePlan_lasting {p : Option Plan} : Lasting (freePlan p) := by
  unfold freePlan
  lasting
  exact kissFreePlan_lasting

theorem createPlan_lasting {width height : ℕ} : Lasting (createPlan s width height) := by
  have plan : Lasting (fftwPlanR2r s width height) := by
    intro w a w' e h
    unfold fftwPlanR2r at e
    split at e <;> cases e <;> exact h
  unfold createPlan
  repeat' first | exact kissCreatePlan_lasting | exact freePlan_lasting | lasting

theorem transform_lasting {p : Plan} {f : List Fl} : Lasting (transform s p f) := by
  unfold transform
  lasting
  exact kissTransform_lasting

theorem detect_lasting {d : Detect} {f r : List Fl} {length n stride dist range : ℕ} {b : ℕ × ℕ} : Lasting (detect s d f length n stride dist range r b) := by
  unfold detect detectOrig
  simp only
  lasting

theorem destroyAnalysis_lasting {a : Option Analysis} : Lasting (destroyAnalysis a) := by
  unfold destroyAnalysis freeBuf
  repeat' first | exact freePlan_lasting | lasting

theorem createAnalysis_lasting {m : Option Method} {width height : ℕ} {p : Option Params} : Lasting (createAnalysis s m width height p) := by
  have fail : ∀ {a : Option Analysis} {e : RDError}, Lasting (createFail a e) := fun {a e} => Lasting.bind destroyAnalysis_lasting (fun _ => Lasting.pure _)
  have coeffs : Lasting (allocCoeffs s width height) := by
    unfold allocCoeffs
    lasting
  have dim : ∀ {length range : ℕ}, Lasting (setupDimension s.cfg length range) := by
    intro length range
    unfold setupDimension
    simp only
    lasting
  unfold createAnalysis
  simp only
  repeat' first | exact fail | exact dim | exact createPlan_lasting | lasting

theorem analyzeImage_lasting {a : Option Analysis} {image : Option (List Fl)} : Lasting (analyzeImage s a image) := by
  have dim : ∀ {d : Detect} {f : List Fl} {length n stride dist range : ℕ} {r : Option (Buf Fl)} {b : Option (ℕ × ℕ)},
      Lasting (detectDim s d f length n stride dist range r b) := by
    intros
    unfold detectDim
    repeat' first | exact detect_lasting | lasting
  unfold analyzeImage
  simp only
  repeat' first | exact dim | exact transform_lasting | lasting

theorem analysisResults_lasting {a : Option Analysis} {ptr : Ptrs} : Lasting (analysisResults s a ptr) := by
  have gen : ∀ {a : Analysis} {length : ℕ} {b : Option (ℕ × ℕ)} {r : Option (Buf Fl)}, Lasting (generateDimensionResults s a length b r) := by
    intros
    unfold generateDimensionResults
    simp only
    lasting
  have give : ∀ {b : Option (Buf Res)}, Lasting (freeBuf b) := Lasting.free
  unfold analysisResults
  refine Lasting.ite (Lasting.pure _) ?_
  cases a with
  | none => exact Lasting.pure _
  | some a =>
    refine Lasting.bind Lasting.touch (fun _ => Lasting.ite (Lasting.pure _) ?_)
    refine Lasting.ite (Lasting.bind gen (fun x => ?_)) (Lasting.bind (Lasting.pure _) (fun x => ?_))
    all_goals
      refine Lasting.ite (Lasting.bind give fun _ => Lasting.pure _) ?_
      refine Lasting.ite (Lasting.bind gen (fun y => ?_)) (Lasting.bind (Lasting.pure _) (fun y => ?_))
      all_goals exact Lasting.ite (Lasting.bind give fun _ => Lasting.bind give fun _ => Lasting.pure _) (Lasting.pure _)

theorem resdetect_lasting {image : Option (List Fl)} {n width height : ℕ} {ptr : Ptrs} {m : Option Method} {p : Option Params} :
    Lasting (resdetect s image n width height ptr m p) := by
  have frames : ∀ {image : List Fl} (todo : ℕ) {i : ℕ} {a : Analysis}, Lasting (analyzeLoop s image width height todo i a) := by
    intro image todo
    induction todo with
    | zero => intro i a; exact Lasting.pure _
    | succ todo ih =>
      intro i a
      unfold analyzeLoop
      repeat' first | exact analyzeImage_lasting | exact ih | lasting
  unfold resdetect
  repeat' first | exact createAnalysis_lasting | exact frames _ | exact analysisResults_lasting | exact destroyAnalysis_lasting | lasting

/-- No step of a program uses up memory, except that others may. -/
theorem cStep_lasting {st : CState} {op : COp} (ho : ∀ w, op ≠ .other w) : Lasting (cStep s st op) := by
  have opt : ∀ {b : Option ℕ}, Lasting (touchOpt b) := by
    intro b
    unfold touchOpt
    lasting
  cases op
  case other w => exact absurd rfl (ho w)
  all_goals
    simp only [cStep, resdetAllocDefaultParameters]
    repeat' (first | exact opt | exact createAnalysis_lasting | exact analyzeImage_lasting | exact analysisResults_lasting | exact destroyAnalysis_lasting | exact resdetect_lasting | lasting)

end Verif
