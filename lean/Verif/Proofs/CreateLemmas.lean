import Verif.Proofs.AnalysisLemmas
import Verif.Proofs.Tri

/-! Creating and destroying analysis objects: every outcome and the heap accounting. -/

namespace Verif

open Spec

/-- Solve a permutation goal by counting. -/
macro "perm_count" : tactic =>
  `(tactic| (refine List.perm_iff_count.mpr (fun x => ?_)
             simp only [List.count_append, List.count_cons, List.count_nil, List.cons_append, List.nil_append]
             try omega))

theorem kissFreePlan_tri {F : Prop} {L R : List ℕ} {p : KissPlan} (h : L.Perm (p.blocks ++ R)) :
    Tri F L (kissFreePlan (some p)) (fun _ L' => L' = R) := by
  unfold kissFreePlan
  have hp : L.Perm ((blk p.cfg0).toList ++ ((blk p.shift0).toList ++
    ((if p.width = p.height then [] else (blk p.cfg1).toList ++ (blk p.shift1).toList) ++
    ((blk p.mirror).toList ++ ((blk p.F).toList ++ (p.block :: R)))))) := by
    refine h.trans ?_
    unfold KissPlan.blocks
    perm_count
  refine Tri.bind (Tri.touch (h.mem_iff.mpr (by simp [KissPlan.blocks]))) ?_
  rintro _ _ rfl
  refine Tri.bind (Tri.freeOpt hp) ?_
  rintro _ _ rfl
  refine Tri.bind (Tri.freeOpt (List.Perm.refl _)) ?_
  rintro _ _ rfl
  have rest : Tri F ((blk p.mirror).toList ++ ((blk p.F).toList ++ (p.block :: R)))
      (do free (blk p.mirror); free (blk p.F); free (some p.block)) (fun _ L' => L' = R) := by
    refine Tri.bind (Tri.freeOpt (List.Perm.refl _)) ?_
    rintro _ _ rfl
    refine Tri.bind (Tri.freeOpt (List.Perm.refl _)) ?_
    rintro _ _ rfl
    exact Tri.free (List.Perm.refl _)
  by_cases e : p.width = p.height
  · simp only [e, ne_eq, not_true_eq_false, if_false, if_true, List.nil_append]
    exact rest
  · simp only [e, ne_eq, not_false_eq_true, if_true, if_false]
    rw [List.append_assoc]
    refine Tri.bind (Tri.freeOpt (List.Perm.refl _)) ?_
    rintro _ _ rfl
    refine Tri.bind (Tri.freeOpt (List.Perm.refl _)) ?_
    rintro _ _ rfl
    exact rest

theorem kissPlanFail_tri {F : Prop} {L R : List ℕ} {p : KissPlan} (h : L.Perm (p.blocks ++ R)) :
    Tri F L (kissPlanFail (some p)) (fun r L' => r = (none, RDENOMEM) ∧ L' = R) := by
  unfold kissPlanFail
  refine Tri.bind (kissFreePlan_tri h) ?_
  rintro _ _ rfl
  exact Tri.pure ⟨rfl, rfl⟩

theorem mallocArr_tri {F : Prop} {L : List ℕ} {c : Cfg} {bytes size : ℕ} :
    Tri F L (mallocArr c bytes size) (fun r L' => (r = none ∧ L' = L ∧ F) ∨
      ∃ b, r = some (b, c.sz bytes / size) ∧ L' = b :: L) := by
  unfold mallocArr
  refine Tri.bind Tri.malloc ?_
  rintro r L' (⟨rfl, rfl, hF⟩ | ⟨b, rfl, rfl⟩)
  · exact Tri.pure (Or.inl ⟨rfl, rfl, hF⟩)
  · exact Tri.pure (Or.inr ⟨b, rfl, rfl⟩)

theorem kissFftrAlloc_tri {F : Prop} {L : List ℕ} {c : Cfg} (hc : KissFits c) {n : ℕ} (h0 : 0 < n) (hn : n ≤ c.intMax / 3)
    (hnp : n ≤ c.pixelMax) :
    Tri F L (kissFftrAlloc c n) (fun r L' => (r = none ∧ L' = L ∧ F) ∨
      ∃ b st, r = some (b, st) ∧ L' = b :: L ∧ st.nfft = n ∧ Stages st.nfft st.factors ∧ kfFactor st.nfft = some st.factors) := by
  unfold kissFftrAlloc
  have hn3 : n * 3 ≤ c.intMax := by omega
  rw [if_neg (by omega)]
  dsimp only
  refine Tri.bind Tri.malloc ?_
  rintro r L' (⟨rfl, rfl, hF⟩ | ⟨b, rfl, rfl⟩)
  · exact Tri.pure (Or.inl ⟨rfl, rfl, hF⟩)
  · have hmem : ¬ c.szFftr + (c.szFft + 2 * c.szKiss * (n - 1)) + 2 * c.szKiss * (n * 3 / 2) > c.sizeMax := by
      have := hc.config n hn hnp
      omega
    simp only
    rw [if_neg hmem]
    obtain ⟨fs, e1, e2, _, _⟩ := kfFactor_spec h0 (by have := hc.factors; omega)
    refine Tri.bind (Tri.lift (Q := fun st L' => st = ⟨n, fs⟩ ∧ L' = b :: L) (a := ⟨n, fs⟩)
      (by unfold kissFftAlloc; rw [e1]; rfl) ⟨rfl, rfl⟩) ?_
    rintro _ _ ⟨rfl, rfl⟩
    exact Tri.pure (Or.inr ⟨b, _, rfl, rfl, rfl, e2, e1⟩)

/-- Outcomes of creating a KISS plan. -/
inductive KissCreated (c : Cfg) (F : Prop) (L : List ℕ) (w h : ℕ) : Option KissPlan × RDError → List ℕ → Prop where
  | ok (p : KissPlan) (L' : List ℕ) : Nonempty (KissGood c p w h) → L'.Perm (p.blocks ++ L) →
      w ≤ c.intMax / 3 → h ≤ c.intMax / 3 → KissCreated c F L w h (some p, RDEOK) L'
  | toobig : (c.intMax / 3 < w ∨ c.intMax / 3 < h) → KissCreated c F L w h (none, RDETOOBIG) L
  | nomem (L' : List ℕ) : F → w ≤ c.intMax / 3 → h ≤ c.intMax / 3 → L' = L ∨ (w ≠ h ∧ ∃ x, L' = x :: L) →
      KissCreated c F L w h (none, RDENOMEM) L'

theorem capacity {c : Cfg} (hk : 0 < c.szKiss) {k n : ℕ} (h : 2 * c.szKiss * n ≤ c.sizeMax) (hk' : k = 2 * c.szKiss * n) :
    c.sz k / (2 * c.szKiss) = n := by
  subst hk'
  rw [Cfg.sz_eq h, Nat.mul_div_cancel_left _ (by omega)]

theorem kissCreatePlan_tri {F : Prop} {L : List ℕ} {c : Cfg} (hwf : c.WF) (hc : KissFits c) {w h : ℕ} (hw : 0 < w)
    (hh : 0 < h) (hwp : w ≤ c.pixelMax) (hhp : h ≤ c.pixelMax) : Tri F L (kissCreatePlan c w h) (KissCreated c F L w h) := by
  unfold kissCreatePlan
  by_cases hbig : w > c.intMax / 3 ∨ h > c.intMax / 3
  · rw [if_pos hbig]
    exact Tri.pure (KissCreated.toobig hbig)
  rw [if_neg hbig]
  have hw3 : w ≤ c.intMax / 3 := by omega
  have hh3 : h ≤ c.intMax / 3 := by omega
  have hk := hwf.szKiss_pos
  dsimp only
  set bs := (if w > h then w else h) with hbs
  have hbw : w ≤ bs := by rw [hbs]; split <;> omega
  have hbh : h ≤ bs := by rw [hbs]; split <;> omega
  have hb3 : bs ≤ c.intMax / 3 := by rw [hbs]; split <;> omega
  have hbp : bs ≤ c.pixelMax := by rw [hbs]; split <;> omega
  have harr : ∀ n, n ≤ bs + 1 → 2 * c.szKiss * n ≤ c.sizeMax := fun n hn =>
    le_trans (Nat.mul_le_mul_left _ hn) (hc.arrays bs hb3 hbp)
  have capM : c.sz (c.szKiss * bs * 2) / c.szKiss = bs * 2 := by
    have e : c.szKiss * bs * 2 = c.szKiss * (bs * 2) := by ring
    have e2 : c.szKiss * (bs * 2) = 2 * c.szKiss * bs := by ring
    rw [e, Cfg.sz_eq (by rw [e2]; exact harr _ (by omega)), Nat.mul_div_cancel_left _ hk]
  have capF : c.sz (2 * c.szKiss * (bs + 1)) / (2 * c.szKiss) = bs + 1 := capacity hk (harr _ (by omega)) rfl
  have cap0 : c.sz (2 * c.szKiss * w) / (2 * c.szKiss) = w := capacity hk (harr _ (by omega)) rfl
  have cap1 : c.sz (2 * c.szKiss * h) / (2 * c.szKiss) = h := capacity hk (harr _ (by omega)) rfl
  have fail : ∀ (L1 : List ℕ) (p : KissPlan), F → L1.Perm (p.blocks ++ L) →
      Tri F L1 (kissPlanFail (some p)) (KissCreated c F L w h) := by
    intro L1 p hF hp
    refine Tri.mono (kissPlanFail_tri hp) ?_
    rintro _ _ ⟨rfl, rfl⟩
    exact KissCreated.nomem _ hF hw3 hh3 (Or.inl rfl)
  refine Tri.bind Tri.malloc ?_
  rintro r L' (⟨rfl, rfl, hF⟩ | ⟨b, rfl, rfl⟩)
  · exact Tri.pure (KissCreated.nomem _ hF hw3 hh3 (Or.inl rfl))
  refine Tri.bind mallocArr_tri ?_
  rintro r L' (⟨rfl, rfl, hF⟩ | ⟨bM, rfl, rfl⟩)
  · exact fail _ _ hF (by simp [KissPlan.blocks, blk])
  refine Tri.bind mallocArr_tri ?_
  rintro r L' (⟨rfl, rfl, hF⟩ | ⟨bF, rfl, rfl⟩)
  · exact fail _ _ hF (by simp only [KissPlan.blocks, blk, Option.map, Option.toList, if_true]; perm_count)
  refine Tri.bind mallocArr_tri ?_
  rintro r L' (⟨rfl, rfl, hF⟩ | ⟨b0, rfl, rfl⟩)
  · exact fail _ _ hF (by simp only [KissPlan.blocks, blk, Option.map, Option.toList, if_true]; perm_count)
  refine Tri.bind (kissFftrAlloc_tri hc hw hw3 hwp) ?_
  rintro r L' (⟨rfl, rfl, hF⟩ | ⟨bc0, st0, rfl, rfl, n0, g0, k0⟩)
  · exact fail _ _ hF (by simp only [KissPlan.blocks, blk, Option.map, Option.toList, if_true]; perm_count)
  simp only [capM, capF, cap0]
  by_cases e : w = h
  · simp only [if_pos e, le_refl, if_true]
    refine Tri.pure (KissCreated.ok _ _ ⟨?_⟩ ?_ hw3 hh3)
    · exact
        { width := rfl, height := rfl, cfg0 := (bc0, st0), cfg1 := (bc0, st0), mirror := (bM, bs * 2), F := (bF, bs + 1)
          shift0 := (b0, w), shift1 := (b0, w), cfg0_eq := rfl, cfg1_eq := rfl, mirror_eq := rfl, F_eq := rfl
          shift0_eq := rfl, shift1_eq := rfl, n0 := n0, n1 := by rw [← e]; exact n0, stages0 := g0, stages1 := g0
          fac0 := k0, fac1 := k0
          int0 := by omega, int1 := by omega, mirror0 := by show w * 2 ≤ bs * 2; omega
          mirror1 := by show h * 2 ≤ bs * 2; omega, F0 := by show w < bs + 1; omega, F1 := by show h < bs + 1; omega
          s0 := le_rfl, s1 := by show h ≤ w; omega, same := fun _ => ⟨rfl, rfl⟩, capM := rfl, capF := rfl, cap0 := rfl, cap1 := e }
    · simp only [KissPlan.blocks, blk, Option.map, Option.toList, if_pos e]; perm_count
  · simp only [if_neg e]
    refine Tri.bind mallocArr_tri ?_
    rintro r L' (⟨rfl, rfl, hF⟩ | ⟨b1, rfl, rfl⟩)
    · exact fail _ _ hF (by simp only [KissPlan.blocks, blk, Option.map, Option.toList, if_true]; perm_count)
    refine Tri.bind (kissFftrAlloc_tri hc hh hh3 hhp) ?_
    rintro r L' (⟨rfl, rfl, hF⟩ | ⟨bc1, st1, rfl, rfl, n1, g1, k1⟩)
    · refine Tri.mono (kissPlanFail_tri (R := b1 :: L) ?_) ?_
      · simp only [KissPlan.blocks, blk, Option.map, Option.toList, if_true]; perm_count
      · rintro _ _ ⟨rfl, rfl⟩
        exact KissCreated.nomem _ hF hw3 hh3 (Or.inr ⟨e, b1, rfl⟩)
    simp only [cap1, le_refl, and_self, if_true]
    refine Tri.pure (KissCreated.ok _ _ ⟨?_⟩ ?_ hw3 hh3)
    · exact
        { width := rfl, height := rfl, cfg0 := (bc0, st0), cfg1 := (bc1, st1), mirror := (bM, bs * 2), F := (bF, bs + 1)
          shift0 := (b0, w), shift1 := (b1, h), cfg0_eq := rfl, cfg1_eq := rfl, mirror_eq := rfl, F_eq := rfl
          shift0_eq := rfl, shift1_eq := rfl, n0 := n0, n1 := n1, stages0 := g0, stages1 := g1
          fac0 := k0, fac1 := k1
          int0 := by omega, int1 := by omega, mirror0 := by show w * 2 ≤ bs * 2; omega
          mirror1 := by show h * 2 ≤ bs * 2; omega, F0 := by show w < bs + 1; omega, F1 := by show h < bs + 1; omega
          s0 := le_rfl, s1 := le_rfl, same := fun h => absurd h e, capM := rfl, capF := rfl, cap0 := rfl, cap1 := rfl }
    · simp only [KissPlan.blocks, blk, Option.map, Option.toList, if_neg e]; perm_count

theorem freePlan_tri {F : Prop} {L R : List ℕ} {p : Option Plan} (h : L.Perm ((p.map Plan.blocks).getD [] ++ R)) :
    Tri F L (freePlan p) (fun _ L' => L' = R) := by
  cases p with
  | none => exact Tri.perm h (Tri.pure rfl)
  | some p =>
    cases p with
    | kiss p => exact kissFreePlan_tri h
    | fftw b q w hh =>
      unfold freePlan
      have h' : L.Perm (q.toList ++ (b :: R)) := h.trans (by simp only [Option.map, Option.getD, Plan.blocks]; perm_count)
      refine Tri.bind (Tri.touch (h.mem_iff.mpr (by simp [Plan.blocks]))) ?_
      rintro _ _ rfl
      cases q with
      | none => exact Tri.free h'
      | some q =>
        refine Tri.bind (Tri.free h') ?_
        rintro _ _ rfl
        exact Tri.free (List.Perm.refl _)

theorem destroyAnalysis_tri {F : Prop} {L R : List ℕ} {a : Analysis} (h : L.Perm (a.blocks ++ R)) :
    Tri F L (destroyAnalysis (some a)) (fun _ L' => L' = R) := by
  unfold destroyAnalysis freeBuf
  have hp : L.Perm ((a.xresult.map Buf.id).toList ++ ((a.yresult.map Buf.id).toList ++ ((a.p.map Plan.blocks).getD [] ++
      ((a.f.map Buf.id).toList ++ (a.block :: R))))) := by
    refine h.trans ?_
    unfold Analysis.blocks
    perm_count
  refine Tri.bind (Tri.touch (h.mem_iff.mpr (by simp [Analysis.blocks]))) ?_
  rintro _ _ rfl
  refine Tri.bind (Tri.freeOpt hp) ?_
  rintro _ _ rfl
  refine Tri.bind (Tri.freeOpt (List.Perm.refl _)) ?_
  rintro _ _ rfl
  refine Tri.bind (freePlan_tri (List.Perm.refl _)) ?_
  rintro _ _ rfl
  refine Tri.bind (Tri.freeOpt (List.Perm.refl _)) ?_
  rintro _ _ rfl
  exact Tri.free (List.Perm.refl _)

theorem fftwPlanR2r_tri {F : Prop} {L : List ℕ} {s : Sys} {w h : ℕ} :
    Tri F L (fftwPlanR2r s w h) (fun r L' => (r = none ∧ L' = L ∧ s.env.fftwPlans w h = false) ∨
      s.env.fftwPlans w h = true ∧ ∃ q, r = some q ∧ L' = q :: L) := by
  intro base v hv
  unfold fftwPlanR2r
  by_cases hs : s.env.fftwPlans w h = true
  · rw [if_pos hs]
    refine ⟨_, _, v.next :: L, rfl, ?_, Or.inr ⟨hs, _, rfl, rfl⟩⟩
    have hnew : ∀ b ∈ L, b ≠ v.next := fun b hb => by have := (hv.new b hb).2; omega
    exact
      { base_wf := hv.base_wf
        next := Nat.le_succ_of_le hv.next
        files := hv.files
        nodup := List.nodup_cons.mpr ⟨fun h => hnew _ h rfl, hv.nodup⟩
        new := by
          intro b hb
          rcases List.mem_cons.mp hb with rfl | hb
          · exact ⟨fun h => absurd (lt_of_lt_of_le (hv.base_wf.live_lt _ h) hv.next) (lt_irrefl _), Nat.lt_succ_self _⟩
          · have := hv.new b hb; exact ⟨this.1, Nat.lt_succ_of_lt this.2⟩
        live := by
          intro b
          simp only [List.mem_cons, hv.live b]
          tauto
        live_nodup := List.nodup_cons.mpr ⟨fun h => absurd (hv.wf.live_lt _ h) (lt_irrefl _), hv.live_nodup⟩
        sched := hv.sched }
  · rw [if_neg hs]
    exact ⟨_, _, L, rfl, hv, Or.inl ⟨rfl, rfl, by simpa using hs⟩⟩

/-- Outcomes of creating a plan. -/
inductive PlanCreated (s : Sys) (F : Prop) (L : List ℕ) (w h : ℕ) : Option Plan × RDError → List ℕ → Prop where
  | ok (p : Plan) (L' : List ℕ) : PlanGood s.cfg w h p → L'.Perm (p.blocks ++ L) → w ≤ sideMax s.cfg →
      h ≤ sideMax s.cfg → (s.cfg.backend = .fftw → s.env.fftwPlans w h = true) →
      PlanCreated s F L w h (some p, RDEOK) L'
  | toobig : (sideMax s.cfg < w ∨ sideMax s.cfg < h) → PlanCreated s F L w h (none, RDETOOBIG) L
  | internal : w ≤ sideMax s.cfg → h ≤ sideMax s.cfg → s.cfg.backend = .fftw → s.env.fftwPlans w h = false →
      PlanCreated s F L w h (none, RDEINTERNAL) L
  | nomem (L' : List ℕ) : F → w ≤ sideMax s.cfg → h ≤ sideMax s.cfg →
      L' = L ∨ (s.cfg.backend = .kiss ∧ w ≠ h ∧ ∃ x, L' = x :: L) → PlanCreated s F L w h (none, RDENOMEM) L'

theorem createPlan_tri {F : Prop} {L : List ℕ} {s : Sys} (hs : Build s) {w h : ℕ} (hw : 0 < w) (hh : 0 < h)
    (hwp : w ≤ s.cfg.pixelMax) (hhp : h ≤ s.cfg.pixelMax) :
    Tri F L (createPlan s w h) (PlanCreated s F L w h) := by
  unfold createPlan
  cases hb : s.cfg.backend with
  | kiss =>
    have hside : sideMax s.cfg = s.cfg.intMax / 3 := by unfold sideMax; rw [hb]
    refine Tri.bind (kissCreatePlan_tri hs.wf (hs.kiss hb) hw hh hwp hhp) ?_
    rintro r L' hr
    cases hr with
    | ok p L' g hp h1 h2 =>
      obtain ⟨g⟩ := g
      exact Tri.pure (PlanCreated.ok (.kiss p) L' (PlanGood.kiss p g hb) hp (by omega) (by omega) (by rw [hb]; simp))
    | toobig hbig => exact Tri.pure (PlanCreated.toobig (by omega))
    | nomem L' hF h1 h2 h3 =>
      refine Tri.pure (PlanCreated.nomem L' hF (by omega) (by omega) ?_)
      rcases h3 with h3 | h3
      · exact Or.inl h3
      · exact Or.inr ⟨hb, h3⟩
  | fftw =>
    have hside : sideMax s.cfg = s.cfg.intMax := by unfold sideMax; rw [hb]
    simp only
    by_cases hbig : w > s.cfg.intMax ∨ h > s.cfg.intMax
    · rw [if_pos hbig]
      exact Tri.pure (PlanCreated.toobig (by omega))
    rw [if_neg hbig]
    refine Tri.bind Tri.malloc ?_
    rintro r L' (⟨rfl, rfl, hF⟩ | ⟨b, rfl, rfl⟩)
    · exact Tri.pure (PlanCreated.nomem _ hF (by omega) (by omega) (Or.inl rfl))
    refine Tri.bind fftwPlanR2r_tri ?_
    rintro r L' (⟨rfl, rfl, hF⟩ | ⟨hF, q, rfl, rfl⟩)
    · refine Tri.bind (freePlan_tri (R := L) (by simp [Plan.blocks])) ?_
      rintro _ _ rfl
      exact Tri.pure (PlanCreated.internal (by omega) (by omega) hb hF)
    · exact Tri.pure (PlanCreated.ok _ _ (PlanGood.fftw b q hb) (by simp only [Plan.blocks, Option.toList]; perm_count) (by omega)
        (by omega) (fun _ => hF))

/-- `dimsExceedLimit` as inequalities. -/
theorem dimsExceedLimit_false {c : Cfg} {w h n e : ℕ} (he : 0 < e) :
    dimsExceedLimit c w h n e = false ↔
      0 < w ∧ 0 < h ∧ 0 < n ∧ w * h * n ≤ c.pixelMax ∧ w * h * n * e ≤ c.sizeMax := by
  unfold dimsExceedLimit
  simp only [Nat.div_div_eq_div_mul]
  rw [Bool.not_eq_false']
  simp only [Bool.and_eq_true, decide_eq_true_eq, ne_eq, Nat.div_eq_zero_iff, not_or, not_lt]
  constructor
  · rintro ⟨⟨⟨⟨h1, h2⟩, h3⟩, h4⟩, h5⟩
    exact ⟨by omega, by omega, by omega, h4.2, h5.2⟩
  · rintro ⟨h1, h2, h3, h4, h5⟩
    exact ⟨⟨⟨⟨by omega, by omega⟩, by omega⟩, by positivity, h4⟩, by positivity, h5⟩

theorem setupDimension_tri {F : Prop} {L : List ℕ} {c : Cfg} (hc : c.WF) {length range : ℕ}
    (hl : length ≤ c.pixelMax) (hs : length < c.sizeMax)
    (hF : c.sizeMax < (length - 2 * range) * c.szInter → F) :
    Tri F L (setupDimension c length range) (fun r L' =>
      (r.1 = RDENOMEM ∧ r.2.1 = none ∧ L' = L ∧ F) ∨
      (r.1 = RDEOK ∧ DimGood length range r.2.1 r.2.2 ∧ L' = (r.2.1.map Buf.id).toList ++ L ∧
        ∀ b, r.2.1 = some b → b.data = List.replicate (length - 2 * range) (.fin false 0))) := by
  unfold setupDimension
  have e0 : c.sz (length + 1) = length + 1 := Cfg.sz_eq (by omega)
  rw [e0]
  by_cases hr : 2 * range < length
  · have h1 : range < (length + 1) / 2 := by omega
    have e1 : c.sz (range * 2) = range * 2 := Cfg.sz_eq (by omega)
    have e2 : c.szSub length (range * 2) = length - 2 * range := by
      rw [Cfg.szSub_eq (by omega) (by omega)]; omega
    have e3 : c.szSub length range = length - range := Cfg.szSub_eq (by omega) (by omega)
    have e4 : c.idx range = range := Cfg.idx_eq (by have := hc.pixel_idx; omega)
    have e5 : c.idx (length - range) = length - range := Cfg.idx_eq (by have := hc.pixel_idx; omega)
    simp only [if_pos h1, e1, e2, e3, e4, e5]
    rw [if_neg (by omega)]
    refine Tri.bind (Tri.calloc (fun h => hF (by omega))) ?_
    rintro r L' (⟨rfl, rfl, hF⟩ | ⟨b, rfl, rfl⟩)
    · exact Tri.pure (Or.inl ⟨rfl, rfl, rfl, hF⟩)
    · refine Tri.pure (Or.inr ⟨rfl, ?_, rfl, ?_⟩)
      · unfold DimGood; rw [if_pos hr]; exact ⟨_, rfl, by simp, rfl⟩
      · rintro _ h; cases h; rfl
  · have h1 : ¬ range < (length + 1) / 2 := by omega
    simp only [if_neg h1, if_true]
    refine Tri.pure (Or.inr ⟨rfl, ?_, rfl, by simp⟩)
    unfold DimGood; rw [if_neg hr]

theorem inUnit_not_neg {x : Fl} (h : InUnit x) : x.lt (.fin false 0) = false := by
  obtain ⟨s, v, rfl, h0, _⟩ := h
  simp [Fl.lt, h0]

theorem methods_threshold {m : Method} (h : m ∈ methods) : InUnit m.threshold := by
  have key : ∀ q : ℚ, q ∈ ([55 / 100, 40 / 100, 64 / 100, 5 / 10] : List ℚ) → InUnit (binary32.deliver false q) := by
    intro q hq
    have hq0 : 0 < q ∧ q ≤ 1 := by
      simp only [List.mem_cons, List.not_mem_nil, or_false] at hq
      rcases hq with rfl | rfl | rfl | rfl <;> norm_num
    have h1 : binary32.rnd q ≤ 1 := by
      have := binary32.rnd_le_natCast binary32_wf (v := q) (n := 1) Nat.one_le_two_pow (by simpa using hq0.2)
      simpa using this
    have h0 : 0 ≤ binary32.rnd q := binary32.rnd_nonneg hq0.1.le
    unfold Fmt.deliver
    rw [if_neg hq0.1.ne', if_neg]
    · exact ⟨_, _, rfl, h0, h1⟩
    · rw [abs_of_nonneg h0, not_le]
      refine lt_of_le_of_lt h1 ?_
      have : pow2 0 < pow2 binary32.emax := pow2_lt (by decide)
      simpa [pow2_eq] using this
  simp only [methods, List.mem_cons, List.not_mem_nil, or_false] at h
  rcases h with rfl | rfl | rfl | rfl <;> exact key _ (by simp)

theorem methods_zerox {m : Method} (h : m ∈ methods) : m.name = "zerox" ↔ m.func = .zerox := by
  simp only [methods, List.mem_cons, List.not_mem_nil, or_false] at h
  rcases h with rfl | rfl | rfl | rfl <;> decide

theorem effMethod_mem {m : Option Method} (h : ValidMethod? m) : effMethod m ∈ methods := by
  cases m with
  | none => exact List.head_mem (by simp [methods])
  | some m => exact h m rfl

theorem defaultParams_valid {c : Cfg} (hc : c.WF) : ValidParams c (defaultParams c) :=
  ⟨hc.range_pos, hc.range_le, Or.inl rfl, by simp [defaultParams]⟩

/-- The parameter set-up of `resdet_create_analysis` (analysis.c:47-64). -/
theorem effParams_model {c : Cfg} (hc : c.WF) {m : Method} (hm : m ∈ methods) {p : Option Params} (hp : ValidParams? c p) :
    (let params := p.getD (defaultParams c)
     let params := if params.threshold.lt (.fin false 0) then { params with threshold := m.threshold } else params
     if m.name = "zerox" then { params with range := 1 } else params) = effParams c m p := by
  have hv : ValidParams c (p.getD (defaultParams c)) := by
    cases p with
    | none => exact defaultParams_valid hc
    | some p => exact hp p rfl
  simp only [methods_zerox hm]
  unfold effParams
  generalize p.getD (defaultParams c) = q at hv
  obtain ⟨r, t, f⟩ := q
  have ht := hv.threshold
  simp only at ht ⊢
  rcases ht with rfl | ht
  · have : (Fl.fin true (-1)).lt (.fin false 0) = true := by decide +kernel
    simp only [this, if_true]
    split <;> rfl
  · have h1 := inUnit_not_neg ht
    have h2 : t ≠ .fin true (-1) := by
      obtain ⟨s, v, rfl, h0, _⟩ := ht
      intro h; cases h; norm_num at h0
    simp only [h1, if_neg h2, Bool.false_eq_true, if_false]
    split <;> rfl

theorem effParams_good {c : Cfg} (hc : c.WF) {m : Method} (hm : m ∈ methods) {p : Option Params} (hp : ValidParams? c p) :
    1 ≤ (effParams c m p).range ∧ InUnit (effParams c m p).threshold ∧ (effParams c m p).compressionFilter ≤ 31 := by
  have hv : ValidParams c (p.getD (defaultParams c)) := by
    cases p with
    | none => exact defaultParams_valid hc
    | some p => exact hp p rfl
  unfold effParams
  refine ⟨?_, ?_, hv.filter⟩
  · simp only; split
    · exact le_rfl
    · exact hv.range_pos
  · simp only; split
    · exact methods_threshold hm
    · rename_i h; exact hv.threshold.resolve_left h

/-- A freshly created analysis. -/
structure Fresh (s : Sys) (m : Option Method) (w h : ℕ) (p : Option Params) (a : Analysis) : Prop where
  good : Good s a
  method : a.method = effMethod m
  width : a.width = w
  height : a.height = h
  params : a.params = effParams s.cfg (effMethod m) p
  nimages : a.nimages = 0
  xzero : ∀ b, a.xresult = some b → b.data = List.replicate (w - 2 * a.params.range) (.fin false 0)
  yzero : ∀ b, a.yresult = some b → b.data = List.replicate (h - 2 * a.params.range) (.fin false 0)

/-- An image size is within the library's limit. -/
def Fits (c : Cfg) (w h : ℕ) : Prop := w * h ≤ c.pixelMax ∧ w * h * c.szCoeff ≤ c.sizeMax

/-- Outcomes of `resdet_create_analysis`. -/
inductive Created (s : Sys) (F : Prop) (L : List ℕ) (m : Option Method) (w h : ℕ) (p : Option Params) :
    Option Analysis × RDError → List ℕ → Prop where
  | ok (a : Analysis) (L' : List ℕ) : Fresh s m w h p a → L'.Perm (a.blocks ++ L) → w ≤ sideMax s.cfg →
      h ≤ sideMax s.cfg → (s.cfg.backend = .fftw → s.env.fftwPlans w h = true) →
      Created s F L m w h p (some a, RDEOK) L'
  | zero : w = 0 ∨ h = 0 → Created s F L m w h p (none, RDEINVAL) L
  | toobig : 0 < w → 0 < h → ¬ Fits s.cfg w h ∨ sideMax s.cfg < w ∨ sideMax s.cfg < h →
      Created s F L m w h p (none, RDETOOBIG) L
  | internal : 0 < w → 0 < h → Fits s.cfg w h → w ≤ sideMax s.cfg → h ≤ sideMax s.cfg → s.cfg.backend = .fftw →
      s.env.fftwPlans w h = false → Created s F L m w h p (none, RDEINTERNAL) L
  | nomem (L' : List ℕ) : F → L' = L ∨ (s.cfg.backend = .kiss ∧ w ≠ h ∧ ∃ x, L' = x :: L) →
      Created s F L m w h p (none, RDENOMEM) L'

theorem createFail_tri {F : Prop} {L R : List ℕ} {a : Analysis} {e : RDError} (h : L.Perm (a.blocks ++ R)) :
    Tri F L (createFail (some a) e) (fun r L' => r = (none, e) ∧ L' = R) := by
  unfold createFail
  refine Tri.bind (destroyAnalysis_tri h) ?_
  rintro _ _ rfl
  exact Tri.pure ⟨rfl, rfl⟩

theorem allocCoeffs_tri {F : Prop} {L : List ℕ} {s : Sys} (hs : s.cfg.WF) {w h : ℕ}
    (hb : w * h * s.cfg.szCoeff ≤ s.cfg.sizeMax) :
    Tri F L (allocCoeffs s w h) (fun r L' => (r = none ∧ L' = L ∧ F) ∨
      ∃ b, r = some b ∧ L' = b.id :: L ∧ b.data.length = w * h) := by
  unfold allocCoeffs
  refine Tri.bind Tri.malloc ?_
  rintro r L' (⟨rfl, rfl, hF⟩ | ⟨b, rfl, rfl⟩)
  · exact Tri.pure (Or.inl ⟨rfl, rfl, hF⟩)
  · refine Tri.pure (Or.inr ⟨_, rfl, rfl, ?_⟩)
    have := hs.szCoeff_two
    have e : s.cfg.szCoeff * w * h = s.cfg.szCoeff * (w * h) := by ring
    simp only [List.length_replicate]
    rw [e, Cfg.sz_eq (by rw [Nat.mul_comm]; exact hb), Nat.mul_div_cancel_left _ (by omega)]

/-- `calloc` would refuse a score array because its byte count exceeds `SIZE_MAX`. -/
def ScoresTooBig (c : Cfg) (w h range : ℕ) : Prop :=
  c.sizeMax < (w - 2 * range) * c.szInter ∨ c.sizeMax < (h - 2 * range) * c.szInter

theorem createAnalysis_tri {F : Prop} {L : List ℕ} {s : Sys} (hs : Build s) {m : Option Method} (hm : ValidMethod? m)
    {p : Option Params} (hp : ValidParams? s.cfg p) {w h : ℕ}
    (hF : ScoresTooBig s.cfg w h (effParams s.cfg (effMethod m) p).range → F) :
    Tri F L (createAnalysis s m w h p) (Created s F L m w h p) := by
  have hmem := effMethod_mem hm
  obtain ⟨g1, g2, g3⟩ := effParams_good hs.wf hmem hp
  unfold createAnalysis
  dsimp only
  refine Tri.bind Tri.malloc ?_
  rintro r L' (⟨rfl, rfl, hF'⟩ | ⟨b, rfl, rfl⟩)
  · exact Tri.pure (Created.nomem _ hF' (Or.inl rfl))
  dsimp only
  refine Tri.bind (Tri.need (Q := fun x L' => x = effMethod m ∧ L' = b :: L) (a := effMethod m) ?_ ⟨rfl, rfl⟩) ?_
  · cases m <;> rfl
  rintro _ _ ⟨rfl, rfl⟩
  have epar := effParams_model hs.wf hmem hp
  dsimp only at epar
  simp only [epar]
  by_cases hz : w ≠ 0 ∧ h ≠ 0
  swap
  · rw [if_pos hz]
    refine Tri.mono (createFail_tri (R := L) (by simp [Analysis.blocks])) ?_
    rintro _ _ ⟨rfl, rfl⟩
    exact Created.zero (by omega)
  rw [if_neg (by simpa using hz)]
  have hw : 0 < w := by omega
  have hh : 0 < h := by omega
  have hsz := hs.wf.szCoeff_two
  by_cases hd : dimsExceedLimit s.cfg w h 1 s.cfg.szCoeff = true
  · rw [if_pos hd]
    refine Tri.mono (createFail_tri (R := L) (by simp [Analysis.blocks])) ?_
    rintro _ _ ⟨rfl, rfl⟩
    refine Created.toobig hw hh (Or.inl ?_)
    intro hfit
    have := (dimsExceedLimit_false (c := s.cfg) (w := w) (h := h) (n := 1) (e := s.cfg.szCoeff) (by omega)).mpr
      ⟨hw, hh, Nat.one_pos, by rw [Nat.mul_one]; exact hfit.1, by rw [Nat.mul_one]; exact hfit.2⟩
    rw [this] at hd; cases hd
  rw [if_neg hd]
  have hfit := (dimsExceedLimit_false (c := s.cfg) (w := w) (h := h) (n := 1) (e := s.cfg.szCoeff) (by omega)).mp (by simpa using hd)
  rw [Nat.mul_one] at hfit
  obtain ⟨_, _, _, hpix, hbytes⟩ := hfit
  refine Tri.bind (allocCoeffs_tri hs.wf hbytes) ?_
  rintro r L' (⟨rfl, rfl, hF'⟩ | ⟨fb, rfl, rfl, hfb⟩)
  · refine Tri.mono (createFail_tri (R := L) (by simp [Analysis.blocks])) ?_
    rintro _ _ ⟨rfl, rfl⟩
    exact Created.nomem _ hF' (Or.inl rfl)
  have hwp : w ≤ w * h := Nat.le_mul_of_pos_right _ hh
  have hhp : h ≤ w * h := Nat.le_mul_of_pos_left _ hw
  refine Tri.bind (createPlan_tri hs hw hh (by omega) (by omega)) ?_
  rintro r L' hr
  cases hr with
  | toobig hbig =>
    simp only [RDETOOBIG]
    rw [if_pos (by decide)]
    refine Tri.mono (createFail_tri (R := L) (by simp [Analysis.blocks]; exact List.Perm.swap _ _ _)) ?_
    rintro _ _ ⟨rfl, rfl⟩
    exact Created.toobig hw hh (Or.inr hbig)
  | internal h1 h2 h3 h4 =>
    simp only [RDEINTERNAL]
    rw [if_pos (by decide)]
    refine Tri.mono (createFail_tri (R := L) (by simp [Analysis.blocks]; exact List.Perm.swap _ _ _)) ?_
    rintro _ _ ⟨rfl, rfl⟩
    exact Created.internal hw hh ⟨hpix, hbytes⟩ h1 h2 h3 h4
  | nomem L' hF' h1 h2 h3 =>
    simp only [RDENOMEM]
    rw [if_pos (by decide)]
    rcases h3 with rfl | ⟨h3, h4, x, rfl⟩
    · refine Tri.mono (createFail_tri (R := L) (by simp [Analysis.blocks]; exact List.Perm.swap _ _ _)) ?_
      rintro _ _ ⟨rfl, rfl⟩
      exact Created.nomem _ hF' (Or.inl rfl)
    · refine Tri.mono (createFail_tri (R := x :: L) (by
        simp only [Analysis.blocks, Option.map, Option.toList, Option.getD]; perm_count)) ?_
      rintro _ _ ⟨rfl, rfl⟩
      exact Created.nomem _ hF' (Or.inr ⟨h3, h4, x, rfl⟩)
  | ok pl L' hpl hperm h1 h2 h3 =>
    simp only [RDEOK, ne_eq, not_true_eq_false, if_false]
    have hbig : w * h * 2 ≤ s.cfg.sizeMax := le_trans (Nat.mul_le_mul_left _ hsz) hbytes
    refine Tri.bind (setupDimension_tri hs.wf (by omega) (by omega) (fun h => hF (Or.inl h))) ?_
    rintro ⟨e, xr, xb⟩ L1 (⟨rfl, rfl, rfl, hF'⟩ | ⟨rfl, hx, rfl, hx0⟩)
    · simp only [RDENOMEM, one_ne_zero, not_false_eq_true, if_true]
      refine Tri.mono (createFail_tri (R := L) (by
        simp only [Analysis.blocks, Option.map, Option.toList, Option.getD]
        refine hperm.trans ?_; perm_count)) ?_
      rintro _ _ ⟨rfl, rfl⟩
      exact Created.nomem _ hF' (Or.inl rfl)
    simp only [RDEOK, not_true_eq_false, if_false]
    refine Tri.bind (setupDimension_tri hs.wf (by omega) (by omega) (fun h => hF (Or.inr h))) ?_
    rintro ⟨e, yr, yb⟩ L2 (⟨rfl, rfl, rfl, hF'⟩ | ⟨rfl, hy, rfl, hy0⟩)
    · simp only [RDENOMEM, one_ne_zero, not_false_eq_true, if_true]
      refine Tri.mono (createFail_tri (R := L) (by
        simp only [Analysis.blocks, Option.map, Option.toList, Option.getD]
        refine (List.Perm.append_left _ hperm).trans ?_; perm_count)) ?_
      rintro _ _ ⟨rfl, rfl⟩
      exact Created.nomem _ hF' (Or.inl rfl)
    simp only [RDEOK, not_true_eq_false, if_false]
    refine Tri.pure (Created.ok _ _ ?_ ?_ h1 h2 h3)
    · exact
        { good :=
            { method := hmem, width_pos := hw, height_pos := hh, pixels := hpix, bytes := hbytes, sideX := h1, sideY := h2
              f := ⟨fb, rfl, hfb⟩, p := ⟨pl, rfl, hpl⟩, x := hx, y := hy, range_pos := g1
              zerox := fun (h : (effMethod m).func = .zerox) => by show (effParams _ _ _).range = 1; unfold effParams; exact if_pos h
              threshold := g2, filter := g3 }
          method := rfl, width := rfl, height := rfl, params := rfl, nimages := rfl, xzero := hx0, yzero := hy0 }
    · simp only [Analysis.blocks, Option.map, Option.toList, Option.getD]
      refine (List.Perm.append_left _ (List.Perm.append_left _ hperm)).trans ?_
      perm_count

end Verif
