import Verif.Proofs.KissStill
import Verif.Proofs.HistoryLemmas

/-! The bundled transform computes the same with every plan of the same size. -/

namespace Verif

open Spec

variable {S : Type} {A : Arith S} {c : Cfg}

theorem touch_inv {b : ℕ} {w w' : World} {u : Unit} (h : touch b w = some (u, w')) : w' = w := by
  unfold touch at h
  split_ifs at h
  cases h
  rfl

theorem touched {β : Type} {b : ℕ} {f : Unit → M β} {w w' : World} {r : β} (h : (touch b >>= f) w = some (r, w')) : f () w = some (r, w') := by
  obtain ⟨u, w1, h1, h2⟩ := M.bind_eq_some.mp h
  rw [touch_inv h1] at h2
  exact h2

/-- What `resdet_transform` computes, without the checks that the plan is still there. -/
def transformOf (A : Arith S) (c : Cfg) (junk : Cpx S) (st0 st1 : FftCfg) (w h : ℕ) (f : List S) : M (List S) := do
  let F0 := List.replicate ((if w > h then w else h) + 1) junk
  let f ← kissDct A c st0 F0 ((if w > h then w else h) * 2) w h w 1 w f
  kissDct A c st1 F0 ((if w > h then w else h) * 2) h w h w 1 f

theorem kissTransform_eq {p : KissPlan} {w h : ℕ} (g : KissGood c p w h) {junk : Cpx S} {f r : List S} {wd wd' : World}
    (hr : kissTransform A c junk p f wd = some (r, wd')) : transformOf A c junk g.cfg0.2 g.cfg1.2 w h f wd = some (r, wd') := by
  unfold kissTransform at hr
  have hr := touched hr
  rw [g.cfg0_eq, g.cfg1_eq, g.mirror_eq, g.F_eq, g.shift0_eq, g.shift1_eq] at hr
  have hr := touched (touched (touched (touched (touched (touched hr)))))
  rw [g.width, g.height, g.capM, g.capF, g.cap0, g.cap1] at hr
  exact hr

theorem sameCfg {p p' : KissPlan} {w h : ℕ} (g : KissGood c p w h) (g' : KissGood c p' w h) : g.cfg0.2 = g'.cfg0.2 ∧ g.cfg1.2 = g'.cfg1.2 := by
  have key : ∀ {a b : FftCfg}, a.nfft = b.nfft → kfFactor a.nfft = some a.factors → kfFactor b.nfft = some b.factors → a = b := by
    rintro ⟨n, fs⟩ ⟨_, fs'⟩ h1 h2 h3
    simp only at h1 h2 h3
    subst h1
    rw [h2] at h3
    cases h3
    rfl
  exact ⟨key (g.n0.trans g'.n0.symm) g.fac0 g'.fac0, key (g.n1.trans g'.n1.symm) g.fac1 g'.fac1⟩

theorem transformOf_temp {p : KissPlan} {w h : ℕ} (g : KissGood c p w h) {junk : Cpx S} {f : List S} (hf : f.length = w * h) :
    Temp [] (transformOf A c junk g.cfg0.2 g.cfg1.2 w h f) (fun r => r.length = w * h) := by
  unfold transformOf
  have hm0 : w * 2 ≤ (if w > h then w else h) * 2 := by split <;> omega
  have hm1 : h * 2 ≤ (if w > h then w else h) * 2 := by split <;> omega
  refine Temp.bind (P := fun (r : List S) => r.length = w * h) ?_ ?_
  · refine Temp.mono (kissDct_temp A c (by rw [g.n0]; exact g.int0) g.stages0 g.n0 hm0 le_rfl
      (by rw [List.length_replicate]; split <;> omega) ?_) (fun r hr => by omega)
    intro j i hj hi
    rw [hf]; exact index_row hj hi
  · intro f' hf'
    refine Temp.mono (kissDct_temp A c (by rw [g.n1]; exact g.int1) g.stages1 g.n1 hm1 le_rfl
      (by rw [List.length_replicate]; split <;> omega) ?_) (fun r hr => by omega)
    intro j i hj hi
    rw [hf']; exact index_col hj hi

theorem transformOf_val {p : KissPlan} {w h : ℕ} (g : KissGood c p w h) (k0 : ∀ x ∈ g.cfg0.2.factors, x.1 ≤ 5)
    (k1 : ∀ x ∈ g.cfg1.2.factors, x.1 ≤ 5) {junk : Cpx S} {f : List S} (hf : f.length = w * h) :
    Val [] (transformOf A c junk g.cfg0.2 g.cfg1.2 w h f) (fun r => r.length = w * h) := by
  unfold transformOf
  have hm0 : w * 2 ≤ (if w > h then w else h) * 2 := by split <;> omega
  have hm1 : h * 2 ≤ (if w > h then w else h) * 2 := by split <;> omega
  refine Val.bind (P := fun (r : List S) => r.length = w * h) ?_ ?_
  · refine Val.mono (kissDct_val A c (by rw [g.n0]; exact g.int0) g.stages0 k0 g.n0 hm0 le_rfl
      (by rw [List.length_replicate]; split <;> omega) ?_) (fun r hr => by omega)
    intro j i hj hi
    rw [hf]; exact index_row hj hi
  · intro f' hf'
    refine Val.mono (kissDct_val A c (by rw [g.n1]; exact g.int1) g.stages1 k1 g.n1 hm1 le_rfl
      (by rw [List.length_replicate]; split <;> omega) ?_) (fun r hr => by omega)
    intro j i hj hi
    rw [hf']; exact index_col hj hi

theorem kiss_repeats {p p' : KissPlan} {w h : ℕ} (g : KissGood c p w h) (g' : KissGood c p' w h) {junk : Cpx S} {f r r' : List S}
    (hf : f.length = w * h) {w1 w2 w1' w2' : World} (h1 : kissTransform A c junk p f w1 = some (r, w2))
    (h2 : kissTransform A c junk p' f w1' = some (r', w2'))
    (hsafe : ((∀ x ∈ g.cfg0.2.factors, x.1 ≤ 5) ∧ ∀ x ∈ g.cfg1.2.factors, x.1 ≤ 5) ∨ w1.sched = w1'.sched) : r = r' := by
  have h1 := kissTransform_eq g h1
  have h2 := kissTransform_eq g' h2
  obtain ⟨e0, e1⟩ := sameCfg g g'
  rw [← e0, ← e1] at h2
  rcases hsafe with ⟨k0, k1⟩ | hsafe
  · obtain ⟨a, _, ha⟩ := transformOf_val (A := A) g k0 k1 (junk := junk) hf
    obtain ⟨_, _, t1⟩ := ha w1 (by simp)
    obtain ⟨_, _, t2⟩ := ha w1' (by simp)
    rw [h1] at t1
    rw [h2] at t2
    cases t1
    cases t2
    rfl
  · obtain ⟨a, _, ha⟩ := transformOf_temp (A := A) g (junk := junk) hf
    have t1 := ha w1 (by simp)
    have t2 := ha w1' (by simp)
    rw [← hsafe] at t2
    rw [h1] at t1
    rw [h2] at t2
    exact (congrArg Prod.fst (Option.some.inj t1)).trans (congrArg Prod.fst (Option.some.inj t2)).symm

end Verif
