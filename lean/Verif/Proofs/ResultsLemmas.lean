import Verif.Spec.Results
import Verif.Proofs.CreateLemmas

/-! `generate_dimension_results` and `resdet_analysis_results`. -/

namespace Verif

open Spec

/-- Neither NaN nor negative. -/
def NN (x : Fl) : Prop := x = .inf false ∨ ∃ s v, x = .fin s v ∧ 0 ≤ v

theorem NN.deliver {F : Fmt} {s : Bool} {v : ℚ} (h : 0 ≤ v) : NN (F.deliver s v) := by
  unfold Fmt.deliver
  split
  · exact Or.inr ⟨_, _, rfl, le_rfl⟩
  · simp only
    split
    · left; congr 1; simpa using h
    · exact Or.inr ⟨_, _, rfl, F.rnd_nonneg h⟩

theorem NN.conv {F : Fmt} {x : Fl} (h : NN x) : NN (F.conv x) := by
  rcases h with rfl | ⟨s, v, rfl, h⟩
  · exact Or.inl rfl
  · exact NN.deliver h

theorem NN.of_ge {x y : Fl} (hy : NN y) (h : x.ge y = true) : NN x := by
  rcases hy with rfl | ⟨s, v, rfl, hv⟩ <;> cases x with
  | nan b => simp [Fl.ge] at h
  | inf b => cases b <;> simp_all [Fl.ge, Fl.lt, NN]
  | fin b u =>
    simp only [Fl.ge, Fl.lt, Bool.not_eq_true', decide_eq_false_iff_not, not_lt, Bool.not_false, Bool.not_true,
      Bool.false_eq_true] at h
    try exact Or.inr ⟨b, u, rfl, by linarith⟩

theorem NN.ge {x : Fl} (h : NN x) : x.ge (.fin false 0) = true := by
  rcases h with rfl | ⟨s, v, rfl, h⟩
  · rfl
  · simp [Fl.ge, Fl.lt, h]

theorem NN.of_inUnit {x : Fl} (h : InUnit x) : NN x := by
  obtain ⟨s, v, rfl, h, _⟩ := h
  exact Or.inr ⟨s, v, rfl, h⟩

theorem filterInterval_eq {length v : ℕ} (hv : v ≤ 31) :
    ∃ fi, filterInterval length v = some fi ∧
      ∀ i, (fi.truthy && filterMiss length fi i) = filteredOut length v i := by
  unfold filterInterval filteredOut
  by_cases h : v = 0
  · simp only [h, if_true]
    exact ⟨_, rfl, fun i => by simp [Fl.truthy]⟩
  · simp only [if_neg h]
    rw [if_pos (by omega)]
    exact ⟨_, rfl, fun i => rfl⟩

/-- Whether offset `i` is reported. -/
def isKept (c : Cfg) (p : Params) (nimages length : ℕ) (data : List Fl) (i : ℕ) : Bool :=
  reaches c p.threshold (data[i]?.getD (.nan false)) nimages && !filteredOut length p.compressionFilter i

theorem keep_eq {c : Cfg} {p : Params} {nimages length : ℕ} {data : List Fl} {fi : Fl} {i : ℕ} (hi : i < data.length)
    (hf : (fi.truthy && filterMiss length fi i) = filteredOut length p.compressionFilter i) :
    keep c p nimages length fi data[i] i = isKept c p nimages length data i := by
  unfold keep isKept
  rw [hf, List.getElem?_eq_getElem hi]
  rfl

theorem countResults_eq {c : Cfg} (hc : c.WF) {p : Params} {nimages length : ℕ} {data : List Fl} {fi : Fl}
    (hrp : 1 ≤ p.range) (hlen : data.length = length - 2 * p.range) (hr : 2 * p.range < length) (hl : length ≤ c.pixelMax)
    (hf : ∀ i, (fi.truthy && filterMiss length fi i) = filteredOut length p.compressionFilter i) :
    countResults c p nimages length fi data (p.range, length - p.range) =
      some ((candidates c p nimages length data).length + 1) := by
  have hpi := hc.pixel_idx
  have hps := hc.pixel_le
  have h1 := hf
  unfold countResults
  have e : c.idxSub (length - p.range) p.range = data.length := by
    rw [Cfg.idxSub_eq (by omega) (by omega)]; omega
  simp only [e]
  rw [idxLoop_eq (by omega)]
  obtain ⟨n, h2, h3⟩ := loop_inv
    (P := fun i (n : ℕ) => n = ((List.range i).filter (isKept c p nimages length data)).length + 1)
    (lo := 0) (hi := data.length) (s := 1)
    (body := fun i n => do
      let r ← rd data i
      return if keep c p nimages length fi r i then c.sz (n + 1) else n) (Nat.zero_le _) (by simp) (by
      intro i n _ hi hn
      rw [rd_eq hi]
      refine ⟨_, rfl, ?_⟩
      rw [keep_eq hi (hf i), List.range_succ, List.filter_append, List.length_append]
      have hle := List.length_filter_le (isKept c p nimages length data) (List.range i)
      rw [List.length_range] at hle
      cases hk : isKept c p nimages length data i with
      | true => rw [if_pos rfl, Cfg.sz_eq (by omega)]; simp [hk]; omega
      | false => simp [hk]; omega)
  rw [h2, h3]
  unfold candidates
  rw [List.length_map]
  rfl

theorem fillResults_eq {c : Cfg} (hc : c.WF) {p : Params} {nimages length cap : ℕ} {data : List Fl} {fi : Fl} {first : Res}
    (hlen : data.length = length - 2 * p.range) (hr : 2 * p.range < length) (hl : length ≤ c.pixelMax)
    (hf : ∀ i, (fi.truthy && filterMiss length fi i) = filteredOut length p.compressionFilter i)
    (hcap : (candidates c p nimages length data).length + 1 ≤ cap) :
    fillResults c p nimages length fi data (p.range, length - p.range) cap [first] =
      some (first :: candidates c p nimages length data) := by
  have hpi := hc.pixel_idx
  unfold fillResults
  have e : c.idxSub (length - p.range) p.range = data.length := by
    rw [Cfg.idxSub_eq (by omega) (by omega)]; omega
  simp only [e]
  rw [idxLoop_eq (by omega)]
  have hcand : candidates c p nimages length data = ((List.range data.length).filter (isKept c p nimages length data)).map
    (fun i => ⟨p.range + i, binary32.conv (mean c (data[i]?.getD (.nan false)) nimages)⟩) := rfl
  obtain ⟨l, h2, h3⟩ := loop_inv
    (P := fun i (acc : List Res) => acc = first :: ((List.range i).filter (isKept c p nimages length data)).map
      (fun i => ⟨p.range + i, binary32.conv (mean c (data[i]?.getD (.nan false)) nimages)⟩))
    (lo := 0) (hi := data.length) (s := [first])
    (body := fun i acc => do
      let r ← rd data i
      if keep c p nimages length fi r i then
        if acc.length < cap then
          return acc ++ [⟨c.idx (i + p.range), binary32.conv (score c r nimages)⟩]
        else none
      else return acc) (Nat.zero_le _) (by simp) (by
      intro i acc _ hi hn
      rw [rd_eq hi]
      simp only [Option.bind_eq_bind, Option.bind_some]
      rw [keep_eq hi (hf i), List.range_succ, List.filter_append, List.map_append]
      cases hk : isKept c p nimages length data i with
      | false => exact ⟨acc, rfl, by simp [hk, hn]⟩
      | true =>
        have hlt : acc.length < cap := by
          refine lt_of_lt_of_le ?_ hcap
          rw [hn, hcand, List.length_cons, List.length_map, List.length_map]
          obtain ⟨d, hd⟩ := Nat.exists_eq_add_of_lt hi
          rw [hd, show i + d + 1 = (i + 1) + d by omega, List.range_add, List.range_succ, List.filter_append,
            List.filter_append, List.length_append, List.length_append]
          simp [hk]; omega
        rw [if_pos rfl, if_pos hlt]
        refine ⟨_, rfl, ?_⟩
        rw [hn, Cfg.idx_eq (by omega)]
        simp [hk, score, mean, List.getElem?_eq_getElem hi, Nat.add_comm])
  rw [h2, h3]
  rfl

theorem candidates_nn {c : Cfg} {p : Params} {nimages length : ℕ} {data : List Fl} (ht : InUnit p.threshold) {r : Res}
    (h : r ∈ candidates c p nimages length data) : NN r.confidence := by
  unfold candidates at h
  rw [List.mem_map] at h
  obtain ⟨i, hi, rfl⟩ := h
  rw [List.mem_filter, Bool.and_eq_true] at hi
  exact NN.conv (NN.of_ge (NN.conv (NN.of_inUnit ht)) hi.2.1)

/-- Not NaN. -/
def Num (x : Fl) : Prop := x.isnan = false

theorem NN.num {x : Fl} (h : NN x) : Num x := by
  rcases h with rfl | ⟨s, v, rfl, h⟩ <;> rfl

/-- Value of a number on an extended scale. -/
def rank : Fl → ℤ × ℚ
  | .nan _ => (0, 0)
  | .inf true => (-1, 0)
  | .inf false => (1, 0)
  | .fin _ v => (0, v)

theorem lt_rank {x y : Fl} (hx : Num x) (hy : Num y) :
    x.lt y = true ↔ (rank x).1 < (rank y).1 ∨ (rank x).1 = (rank y).1 ∧ (rank x).2 < (rank y).2 := by
  cases x with
  | nan => simp [Num, Fl.isnan] at hx
  | inf a => cases y with
    | nan => simp [Num, Fl.isnan] at hy
    | inf b => cases a <;> cases b <;> simp [Fl.lt, rank]
    | fin _ _ => cases a <;> simp [Fl.lt, rank]
  | fin _ v => cases y with
    | nan => simp [Num, Fl.isnan] at hy
    | inf b => cases b <;> simp [Fl.lt, rank]
    | fin _ _ => simp [Fl.lt, rank]

theorem sortres_pos {a b : Res} : 0 < sortres a b ↔ a.confidence.lt b.confidence = true := by
  unfold sortres
  split
  · simp_all
  · split <;> simp_all

theorem lt_asymm' {x y : Fl} (h : x.lt y = true) : y.lt x = false := by
  cases x <;> cases y <;> simp_all [Fl.lt]; linarith

theorem sortres_neg {a b : Res} : sortres a b < 0 ↔ b.confidence.lt a.confidence = true := by
  unfold sortres Fl.gt
  split
  · rename_i h; simp [lt_asymm' h]
  · split <;> simp_all

theorem consistent_of_num {l : List Res} (h : ∀ r ∈ l, Num r.confidence) : Consistent sortres l where
  refl := by
    intro a ha
    have : ¬ a.confidence.lt a.confidence = true := by rw [lt_rank (h a ha) (h a ha)]; simp
    unfold sortres Fl.gt; simp [this]
  anti := by
    intro a ha b hb
    unfold sortres Fl.gt
    cases h1 : a.confidence.lt b.confidence <;> cases h2 : b.confidence.lt a.confidence
    · rfl
    · rfl
    · rfl
    · rw [lt_asymm' h1] at h2; cases h2
  trans := by
    intro a ha b hb c hc h1 h2
    have e1 : ¬ a.confidence.lt b.confidence = true := fun h => by have := sortres_pos.mpr h; omega
    have e2 : ¬ b.confidence.lt c.confidence = true := fun h => by have := sortres_pos.mpr h; omega
    by_contra h3
    have e3 := sortres_pos.mp (not_le.mp h3)
    rw [lt_rank (h a ha) (h b hb)] at e1
    rw [lt_rank (h b hb) (h c hc)] at e2
    rw [lt_rank (h a ha) (h c hc)] at e3
    push Not at e1 e2
    obtain ⟨a1, a2⟩ := e1
    obtain ⟨b1, b2⟩ := e2
    rcases e3 with e3 | ⟨e3, e4⟩
    · omega
    · have h5 : (rank a.confidence).1 = (rank b.confidence).1 := by omega
      have h6 : (rank b.confidence).1 = (rank c.confidence).1 := by omega
      have := a2 h5
      have := b2 h6
      linarith

/-- The result list of a dimension. -/
def dimList (s : Sys) (a : Analysis) (length : ℕ) (result : Option (Buf Fl)) : List Res :=
  s.env.sorter (sentinel length :: candidates s.cfg a.params a.nimages length (scores result))

theorem dim_consistent {s : Sys} {p : Params} (ht : InUnit p.threshold) {nimages length : ℕ} {data : List Fl} :
    Consistent sortres (sentinel length :: candidates s.cfg p nimages length data) := by
  refine consistent_of_num ?_
  intro r hr
  rcases List.mem_cons.mp hr with rfl | hr
  · rfl
  · exact (candidates_nn ht hr).num

/-- Deliver a list in a fresh array. -/
def allocList (l : List Res) : M (RDError × Option (Buf Res)) := do
  match ← malloc with
  | none => return (RDENOMEM, none)
  | some b => return (RDEOK, some ⟨b, l⟩)

theorem sideMax_le {c : Cfg} : sideMax c ≤ c.intMax := by
  unfold sideMax; split
  · exact Nat.div_le_self _ _
  · exact le_rfl

theorem generate_eq {s : Sys} (hs : s.cfg.WF) {a : Analysis} (hg : Good s a) {length : ℕ} {bounds : Option (ℕ × ℕ)}
    {result : Option (Buf Fl)} (hd : DimGood length a.params.range result bounds) (hl : length ≤ s.cfg.pixelMax)
    (hres : (length + 1) * s.cfg.szRes ≤ s.cfg.sizeMax) {w : World} (hlive : ∀ r, result = some r → r.id ∈ w.live) :
    generateDimensionResults s a length bounds result w = allocList (dimList s a length result) w := by
  have hcons := dim_consistent (s := s) (nimages := a.nimages) (length := length) (data := scores result) hg.threshold
  have hq : s.env.qsort (sentinel length :: candidates s.cfg a.params a.nimages length (scores result)) =
      some (dimList s a length result) := by
    unfold Env.qsort; rw [if_pos hcons]; rfl
  obtain ⟨fi, e1, e2⟩ := filterInterval_eq (length := length) hg.filter
  have hsz := hs.szRes_pos
  unfold generateDimensionResults
  simp only
  rw [e1, M.bind_some (M.lift_apply_some _ _)]
  unfold DimGood at hd
  have hcap : ∀ n, n ≤ length + 1 → s.cfg.sz (n * s.cfg.szRes) / s.cfg.szRes = n := by
    intro n hn
    rw [Cfg.sz_eq (le_trans (Nat.mul_le_mul_right _ hn) hres), Nat.mul_div_cancel _ hsz]
  split at hd
  · rename_i hr
    obtain ⟨r, rfl, hlen, rfl⟩ := hd
    have hlen' : (scores (some r)) = r.data := rfl
    rw [hlen'] at hq
    have hk : (candidates s.cfg a.params a.nimages length r.data).length ≤ r.data.length := by
      unfold candidates
      rw [List.length_map]
      exact le_trans (List.length_filter_le _ _) (by simp)
    simp only
    rw [M.bind_some (touch_live (hlive r rfl)),
      M.bind_some (a := (a.params.range, length - a.params.range)) (w' := w) rfl,
      countResults_eq hs hg.range_pos hlen hr hl e2, M.bind_some (M.lift_apply_some _ _)]
    unfold allocList
    rw [M.bind_apply, M.bind_apply]
    cases hm : malloc w with
    | none => rfl
    | some v =>
      obtain ⟨o, w'⟩ := v
      cases o with
      | none => rfl
      | some b =>
        simp only
        have hr1 := hg.range_pos
        rw [hcap _ (by omega), if_neg (by omega)]
        rw [M.bind_some (a := (a.params.range, length - a.params.range)) (w' := w') rfl]
        rw [show (⟨length, .fin true (-1)⟩ : Res) = sentinel length from rfl]
        rw [fillResults_eq hs hlen hr hl e2 le_rfl, M.bind_some (M.lift_apply_some _ _), hq,
          M.bind_some (M.lift_apply_some _ _)]
  · subst hd
    have hlen' : candidates s.cfg a.params a.nimages length (scores none) = [] := rfl
    rw [hlen'] at hq
    simp only
    rw [pure_bind]
    unfold allocList
    rw [M.bind_apply, M.bind_apply]
    cases hm : malloc w with
    | none => rfl
    | some v =>
      obtain ⟨o, w'⟩ := v
      cases o with
      | none => rfl
      | some b =>
        simp only
        rw [hcap _ (by omega), if_neg (by omega), pure_bind]
        rw [show (⟨length, .fin true (-1)⟩ : Res) = sentinel length from rfl, hq,
          M.bind_some (M.lift_apply_some _ _)]

/-- `resdet_analysis_results` without the pointer accesses. -/
def resultsProg (s : Sys) (a : Analysis) (ptr : Ptrs) : M (RDError × Out × Option Analysis) := do
  if (ptr.rw && !ptr.cw) || (ptr.rh && !ptr.ch) then return (RDEPARAM, Out.nothing, some a)
  else if a.nimages = 0 then return (RDENOIMG, Out.nothing, some a)
  else
    let (e, rw) ← if ptr.rw then allocList (dimList s a a.width a.xresult) else pure (RDEOK, none)
    if e ≠ 0 then
      freeBuf rw
      return (e, Out.nothing, some a)
    else
      let (e, rh) ← if ptr.rh then allocList (dimList s a a.height a.yresult) else pure (RDEOK, none)
      if e ≠ 0 then
        freeBuf rw
        freeBuf rh
        return (e, Out.nothing, some a)
      else
        return (RDEOK, ⟨rw, (rw.map (fun b => b.data.length)).getD 0, rh, (rh.map (fun b => b.data.length)).getD 0⟩,
          some a)

theorem allocList_live {l : List Res} {w w' : World} {r : RDError × Option (Buf Res)}
    (h : allocList l w = some (r, w')) : ∀ b ∈ w.live, b ∈ w'.live := by
  unfold allocList at h
  rw [M.bind_apply] at h
  unfold malloc at h
  intro b hb
  by_cases hw : w.sched 0 = true
  · simp only [hw, if_true] at h
    cases h
    exact List.mem_cons_of_mem _ hb
  · simp only [hw] at h
    cases h
    exact hb

theorem Good.width_le {s : Sys} {a : Analysis} (hg : Good s a) : a.width ≤ s.cfg.pixelMax :=
  le_trans (Nat.le_mul_of_pos_right _ hg.height_pos) hg.pixels

theorem Good.height_le {s : Sys} {a : Analysis} (hg : Good s a) : a.height ≤ s.cfg.pixelMax :=
  le_trans (Nat.le_mul_of_pos_left _ hg.width_pos) hg.pixels

theorem analysisResults_eq' {s : Sys} (hs : s.cfg.WF) {a : Analysis} (hg : Good s a)
    (hx : (a.width + 1) * s.cfg.szRes ≤ s.cfg.sizeMax) (hy : (a.height + 1) * s.cfg.szRes ≤ s.cfg.sizeMax) {ptr : Ptrs} {w : World}
    (hlive : ∀ b ∈ a.blocks, b ∈ w.live) :
    analysisResults s (some a) ptr w = resultsProg s a ptr w := by
  unfold analysisResults resultsProg
  split
  · rfl
  simp only
  rw [M.bind_some (touch_live (hlive _ (by simp [Analysis.blocks])))]
  split
  · rfl
  have hx : ∀ w' : World, (∀ b ∈ w.live, b ∈ w'.live) →
      generateDimensionResults s a a.width a.xbound a.xresult w' = allocList (dimList s a a.width a.xresult) w' := by
    intro w' hw'
    refine generate_eq hs hg hg.x hg.width_le hx ?_
    intro r hr
    exact hw' _ (hlive _ (by simp [Analysis.blocks, hr]))
  have hy : ∀ w' : World, (∀ b ∈ w.live, b ∈ w'.live) →
      generateDimensionResults s a a.height a.ybound a.yresult w' = allocList (dimList s a a.height a.yresult) w' := by
    intro w' hw'
    refine generate_eq hs hg hg.y hg.height_le hy ?_
    intro r hr
    exact hw' _ (hlive _ (by simp [Analysis.blocks, hr]))
  cases h1 : ptr.rw <;> cases h2 : ptr.rh
  · rfl
  · simp only [Bool.false_eq_true, if_false, if_true, pure_bind, RDEOK, ne_eq, not_true_eq_false]
    rw [M.bind_apply, M.bind_apply, hy w (fun _ h => h)]
  · simp only [Bool.false_eq_true, if_false, if_true, pure_bind, RDEOK, ne_eq, not_true_eq_false]
    rw [M.bind_apply, M.bind_apply, hx w (fun _ h => h)]
  · simp only [if_true]
    rw [M.bind_apply, M.bind_apply, hx w (fun _ h => h)]
    cases hm : allocList (dimList s a a.width a.xresult) w with
    | none => rfl
    | some v =>
      obtain ⟨⟨e, rw⟩, w'⟩ := v
      simp only
      split
      · rfl
      · rw [M.bind_apply, M.bind_apply, hy w' (allocList_live hm)]

theorem analysisResults_eq {s : Sys} (hs : Build s) {a : Analysis} (hg : Good s a) {ptr : Ptrs} {w : World}
    (hlive : ∀ b ∈ a.blocks, b ∈ w.live) :
    analysisResults s (some a) ptr w = resultsProg s a ptr w :=
  analysisResults_eq' hs.wf hg (hs.results _ (le_trans hg.sideX sideMax_le) hg.width_le)
    (hs.results _ (le_trans hg.sideY sideMax_le) hg.height_le) hlive

end Verif
