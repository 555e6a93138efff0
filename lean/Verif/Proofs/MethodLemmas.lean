import Verif.Model.Methods
import Verif.Spec.Scores
import Verif.Proofs.Loops
import Verif.Proofs.FloatLemmas

/-! The detection functions compute the scores of `Verif.Spec.Scores`, and never leave their arrays. -/

namespace Verif

open Spec

/-- The array and index geometry of one detection pass. -/
structure Geom (c : Cfg) (f : List Fl) (length n stride dist range : ℕ) : Prop where
  inb : ∀ y x, y < n → x < length → y * stride + x * dist < f.length
  size : f.length ≤ c.sizeMax
  len_idx : length ≤ c.idxMax
  n_idx : n ≤ c.idxMax
  stor : n * length ≤ c.storMax
  room : 2 * range < length
  range_pos : 0 < range
  n_pos : 0 < n
  dist_pos : 0 < dist

/-- The table the pass works on. -/
def tab (f : List Fl) (stride dist : ℕ) (y x : ℕ) : Fl := (f[y * stride + x * dist]?).getD (.nan false)

section
variable {c : Cfg} {f : List Fl} {length n stride dist range : ℕ}

theorem Geom.rd_tab (h : Geom c f length n stride dist range) {y x : ℕ} (hy : y < n) (hx : x < length) :
    rd f (y * stride + x * dist) = some (tab f stride dist y x) := by
  have := h.inb y x hy hx
  rw [rd_eq this]; unfold tab
  rw [List.getElem?_eq_getElem this]; rfl

theorem Geom.midIdx_eq (h : Geom c f length n stride dist range) {y x : ℕ} (hy : y < n) (hx : x < length) :
    midIdx c stride dist y x = y * stride + x * dist := by
  have h1 := h.inb y x hy hx
  have h2 := h.size
  unfold midIdx
  rw [Cfg.sz_eq (n := y * stride) (by omega), Cfg.sz_eq (n := x * dist) (by omega), Cfg.sz_eq (by omega)]

theorem Geom.leftIdx_eq (h : Geom c f length n stride dist range) {y x i : ℕ} (hy : y < n) (hx : x < length)
    (hi : i ≤ x) : leftIdx c stride dist y x i = y * stride + (x - i) * dist := by
  have h1 := h.inb y x hy hx
  have h2 := h.size
  have h3 : i * dist ≤ x * dist := Nat.mul_le_mul_right _ hi
  unfold leftIdx
  rw [Cfg.sz_eq (n := y * stride) (by omega), Cfg.sz_eq (n := x * dist) (by omega), Cfg.sz_eq (n := i * dist) (by omega),
    Cfg.sz_eq (by omega), Cfg.szSub_eq (by omega) (by omega), Nat.sub_mul]
  omega

theorem Geom.rightIdx_eq (h : Geom c f length n stride dist range) {y x i : ℕ} (hy : y < n) (hx : x + i < length) :
    rightIdx c stride dist y x i = y * stride + (x + i) * dist := by
  have h1 := h.inb y (x + i) hy hx
  have h2 := h.size
  rw [Nat.add_mul] at h1
  unfold rightIdx
  rw [Cfg.sz_eq (n := y * stride) (by omega), Cfg.sz_eq (n := x * dist) (by omega), Cfg.sz_eq (n := i * dist) (by omega),
    Cfg.sz_eq (n := y * stride + x * dist) (by omega), Cfg.sz_eq (by omega), Nat.add_mul]
  omega

end

/-- A counting loop. -/
theorem loop_count {c : Cfg} (p : ℕ → Bool) {lo hi c0 : ℕ} (hle : lo ≤ hi) (hs : c0 + (hi - lo) ≤ c.storMax)
    {body : ℕ → ℕ → Option ℕ} (hb : ∀ i cnt, lo ≤ i → i < hi → body i cnt = some (bump c cnt (p i))) :
    loop lo hi body c0 = some (c0 + ((Finset.Ico lo hi).filter (fun i => p i = true)).card) := by
  obtain ⟨r, h1, h2⟩ := loop_inv
    (P := fun i cnt => cnt = c0 + ((Finset.Ico lo i).filter (fun i => p i = true)).card) (body := body) (s := c0) hle
    (by simp)
    (by
      intro i cnt hlo hhi hP
      refine ⟨_, hb i cnt hlo hhi, ?_⟩
      have hcard : ((Finset.Ico lo i).filter (fun i => p i = true)).card ≤ i - lo := by
        calc _ ≤ (Finset.Ico lo i).card := Finset.card_filter_le _ _
          _ = i - lo := Nat.card_Ico _ _
      have e : Finset.Ico lo (i + 1) = insert i (Finset.Ico lo i) := by
        ext z; simp only [Finset.mem_Ico, Finset.mem_insert]; omega
      rw [e, Finset.filter_insert]
      unfold bump
      by_cases hp : p i = true
      · rw [if_pos hp, if_pos hp, Finset.card_insert_of_notMem (by simp), Cfg.stor_eq (by omega)]
        omega
      · rw [if_neg hp, if_neg hp, Cfg.stor_eq (by omega)]
        omega)
  rw [h1, h2]

/-- The doubly nested counting loop over lines and distances. -/
theorem loop_count2 {c : Cfg} (p : ℕ → ℕ → Bool) {n range : ℕ} (hs : n * range ≤ c.storMax)
    (hn : n ≤ c.idxMax) (hr : range + 1 ≤ c.idxMax)
    {body : ℕ → ℕ → ℕ → Option ℕ}
    (hb : ∀ y i cnt, y < n → 1 ≤ i → i ≤ range → body y i cnt = some (bump c cnt (p y i))) :
    idxLoop c 0 n (fun y cnt => idxLoop c 1 (range + 1) (body y) cnt) 0 =
      some (((Finset.range n ×ˢ Finset.Icc 1 range).filter (fun q => p q.1 q.2 = true)).card) := by
  have key : ∀ y, ((Finset.range y ×ˢ Finset.Icc 1 range).filter (fun q => p q.1 q.2 = true)).card ≤ y * range := by
    intro y
    calc _ ≤ (Finset.range y ×ˢ Finset.Icc 1 range).card := Finset.card_filter_le _ _
      _ = y * range := by rw [Finset.card_product]; simp
  rw [idxLoop_eq hn]
  obtain ⟨r, h1, h2⟩ := loop_inv
    (P := fun y cnt => cnt = ((Finset.range y ×ˢ Finset.Icc 1 range).filter (fun q => p q.1 q.2 = true)).card)
    (body := fun y cnt => idxLoop c 1 (range + 1) (body y) cnt) (s := 0) (Nat.zero_le n)
    (by simp)
    (by
      intro y cnt _ hy hP
      have hk := key y
      have hmul : (y + 1) * range ≤ n * range := Nat.mul_le_mul_right _ (by omega)
      rw [Nat.add_mul, Nat.one_mul] at hmul
      refine ⟨_, ?_, rfl⟩
      show idxLoop c 1 (range + 1) (body y) cnt = _
      rw [idxLoop_eq hr, loop_count (p y) (by omega) (by omega) (fun i cnt h1 h2 => hb y i cnt hy h1 (by omega)), hP]
      congr 1
      have e1 : Finset.range (y + 1) ×ˢ Finset.Icc 1 range =
          (Finset.range y ×ˢ Finset.Icc 1 range) ∪ ({y} ×ˢ Finset.Icc 1 range) := by
        rw [← Finset.union_product]
        congr 1
        ext z; simp only [Finset.mem_range, Finset.mem_union, Finset.mem_singleton]; omega
      have hdis : Disjoint (Finset.range y ×ˢ Finset.Icc 1 range) (({y} : Finset ℕ) ×ˢ Finset.Icc 1 range) := by
        rw [Finset.disjoint_left]
        rintro ⟨a, b⟩ h1 h2
        simp only [Finset.mem_product, Finset.mem_range, Finset.mem_singleton] at h1 h2
        omega
      rw [e1, Finset.filter_union, Finset.card_union_of_disjoint (Finset.disjoint_filter_filter hdis)]
      congr 1
      rw [Finset.singleton_product, Finset.filter_map, Finset.card_map]
      congr 1)
  rw [h1, h2]

section
variable {c : Cfg} {f : List Fl} {length n stride dist range : ℕ}

theorem Geom.stor_range (h : Geom c f length n stride dist range) : n * range ≤ c.storMax :=
  le_trans (Nat.mul_le_mul_left _ (by have := h.room; omega)) h.stor

theorem Geom.range_idx (h : Geom c f length n stride dist range) : range + 1 ≤ c.idxMax := by
  have := h.room; have := h.len_idx; have := h.range_pos; omega

/-- `signCount` is the number of sign mismatches. -/
theorem signCount_eq (h : Geom c f length n stride dist range) {x : ℕ} (h1 : range ≤ x) (h2 : x + range < length) :
    signCount c f n stride dist range x = some (signMatches (tab f stride dist) n range x) := by
  unfold signCount
  rw [loop_count2 (fun y i => (tab f stride dist y (x - i)).signbit != (tab f stride dist y (x + i)).signbit)
    h.stor_range h.n_idx h.range_idx]
  · unfold signMatches
    congr 2
    apply Finset.filter_congr
    intro q _
    exact bne_iff_ne
  · intro y i cnt hy hi1 hi2
    rw [h.leftIdx_eq hy (by omega) (by omega), h.rightIdx_eq hy (by omega), h.rd_tab hy (by omega),
      h.rd_tab hy (by omega)]
    rfl

theorem accum_eq {c : Cfg} {l : List Fl} {i : ℕ} {a v : Fl} (h : l[i]? = some a) :
    accum c l i v = some (l.set i (c.inter.add a v)) := by
  have hi : i < l.length := by
    by_contra hc
    rw [List.getElem?_eq_none (by omega)] at h; cases h
  unfold accum
  rw [show rd l i = some a from h]
  exact wr_eq hi

/-- `detect_method_sign` adds the sign score of every position. -/
theorem detectSign_eq (s : Sys) (h : Geom s.cfg f length n stride dist range) {result : List Fl}
    (hlen : result.length = length - 2 * range) :
    detectSign s.cfg f n stride dist range result range (length - range) =
      some (result.mapIdx (fun k r => addScore s.cfg r (frameScore s .sign (tab f stride dist) n range (range + k)))) := by
  have hr := h.room
  have hl := h.len_idx
  unfold detectSign
  rw [idxLoop_eq (by omega)]
  apply loop_set_all (g := fun x r => addScore s.cfg r (frameScore s .sign (tab f stride dist) n range x)) (by omega)
  intro x l' a hx1 hx2 hl' ha
  rw [signCount_eq h (by omega) (by omega), Cfg.idxSub_eq hx1 (by omega)]
  exact accum_eq ha

theorem frexp_le_zero (s : Sys) (t : Fl) :
    (decide (t.frexpExp (s.env.frexpJunk t) ≤ 0)) =
      match t with
      | .fin _ v => decide (|v| < 1)
      | t => decide (s.env.frexpJunk t ≤ 0) := by
  cases t with
  | nan _ => rfl
  | inf _ => rfl
  | fin sg v =>
    show decide ((Fl.fin sg v).frexpExp (s.env.frexpJunk (.fin sg v)) ≤ 0) = decide (|v| < 1)
    rw [decide_eq_decide]
    show (if v = 0 then (0 : ℤ) else ilog2 |v| + 1) ≤ 0 ↔ |v| < 1
    by_cases hv : v = 0
    · subst hv; simp
    · rw [if_neg hv]
      have hp : 0 < |v| := abs_pos.mpr hv
      obtain ⟨a, b⟩ := ilog2_spec hp
      constructor
      · intro hle
        calc |v| < pow2 (ilog2 |v| + 1) := b
          _ ≤ pow2 0 := pow2_le hle
          _ = 1 := by simp [pow2_eq]
      · intro hlt
        have : pow2 (ilog2 |v|) < pow2 0 := lt_of_le_of_lt a (by simpa [pow2_eq] using hlt)
        have := lt_of_pow2_lt this
        omega

theorem magHit_eq (s : Sys) (a b : Fl) :
    (decide ((s.cfg.inter.conv (magTerm s.cfg a b)).frexpExp
      (s.env.frexpJunk (s.cfg.inter.conv (magTerm s.cfg a b))) ≤ 0)) = magHit s a b := by
  rw [frexp_le_zero]
  unfold magHit magTerm epsilon Fl.gt
  rfl

/-- `detect_method_magnitude` adds the mag score of every position. -/
theorem detectMag_eq (s : Sys) (h : Geom s.cfg f length n stride dist range) {result : List Fl}
    (hlen : result.length = length - 2 * range) :
    detectMag s f n stride dist range result range (length - range) =
      some (result.mapIdx (fun k r => addScore s.cfg r (frameScore s .mag (tab f stride dist) n range (range + k)))) := by
  have hr := h.room
  have hl := h.len_idx
  unfold detectMag
  simp only
  rw [idxLoop_eq (by omega)]
  apply loop_set_all (g := fun x r => addScore s.cfg r (frameScore s .mag (tab f stride dist) n range x)) (by omega)
  intro x l' a hx1 hx2 hl' ha
  have hcount : magCount s f n stride dist range x =
      some (pairMatches (magHit s) (tab f stride dist) n range x) := by
    unfold magCount
    simp only
    rw [loop_count2 (fun y i => magHit s (tab f stride dist y (x - i)) (tab f stride dist y (x + i)))
      h.stor_range h.n_idx h.range_idx]
    · rfl
    · intro y i cnt hy hi1 hi2
      rw [h.leftIdx_eq hy (by omega) (by omega), h.rightIdx_eq hy (by omega), h.rd_tab hy (by omega),
        h.rd_tab hy (by omega)]
      simp only [Option.bind_eq_bind, Option.bind_some]
      rw [magHit_eq]
      rfl
  rw [hcount, Cfg.idxSub_eq hx1 (by omega)]
  exact accum_eq ha

/-- `detect_method_zerocrossing` adds the crossing score of every position. -/
theorem detectZerox_eq (s : Sys) (h : Geom s.cfg f length n stride dist 1) {result : List Fl}
    (hlen : result.length = length - 2) :
    detectZerox s.cfg f n stride dist result 1 (length - 1) =
      some (result.mapIdx (fun k r => addScore s.cfg r (frameScore s .zerox (tab f stride dist) n 1 (1 + k)))) := by
  have hr := h.room
  have hl := h.len_idx
  have hst := h.stor_range
  unfold detectZerox
  rw [idxLoop_eq (by omega)]
  apply loop_set_all (g := fun x r => addScore s.cfg r (frameScore s .zerox (tab f stride dist) n 1 x)) (by omega)
  intro x l' a hx1 hx2 hl' ha
  rw [idxLoop_eq h.n_idx, loop_count
    (fun y => crosses (tab f stride dist y (x - 1)) (tab f stride dist y x) (tab f stride dist y (x + 1)))
    (Nat.zero_le _) (by omega)]
  · rw [Cfg.idxSub_eq hx1 (by omega), Nat.zero_add]
    have : Finset.Ico 0 n = Finset.range n := by ext; simp
    rw [this]
    exact accum_eq ha
  · intro y cnt _ hy
    rw [h.leftIdx_eq hy (by omega) (by omega), h.rightIdx_eq hy (by omega), h.midIdx_eq hy (by omega),
      h.rd_tab hy (by omega), h.rd_tab hy (by omega), h.rd_tab hy (by omega)]
    rfl

theorem fsum_succ (F : Fmt) (g : ℕ → Fl) (k : ℕ) :
    fsum F ((List.range (k + 1)).map g) = F.add (fsum F ((List.range k).map g)) (g k) := by
  unfold fsum
  rw [List.range_succ, List.map_append, List.foldl_append]
  rfl

theorem mapIdx_map_range {α β : Type} (len : ℕ) (a : ℕ → α) (b : ℕ → α → β) :
    ((List.range len).map a).mapIdx b = (List.range len).map (fun k => b k (a k)) := by
  apply List.ext_getElem?
  intro k
  rw [List.getElem?_mapIdx, List.getElem?_map, List.getElem?_map]
  rcases Nat.lt_or_ge k len with h | h
  · rw [List.getElem?_range h]; rfl
  · rw [List.getElem?_eq_none (by simpa using h)]; rfl

/-- The column sums of `detect_method_original` are the mean magnitudes. -/
theorem origSums_eq (h : Geom c f length n stride dist range) :
    origSums c f length n stride dist = some ((List.range length).map (meanMag c (tab f stride dist) n)) := by
  have hl := h.len_idx
  have h1 : idxLoop c 0 n (fun y sum =>
      idxLoop c 0 length (fun x sum => do
        let v ← rd f (midIdx c stride dist y x)
        accum c sum x (c.inter.conv v).fabs) sum) (List.replicate length (Fl.fin false 0)) =
      some ((List.range length).map (fun x => fsum c.inter ((List.range n).map
        (fun y => (c.inter.conv (tab f stride dist y x)).fabs)))) := by
    rw [idxLoop_eq h.n_idx]
    obtain ⟨r, e1, e2⟩ := loop_inv
      (P := fun y (sum : List Fl) => sum = (List.range length).map (fun x => fsum c.inter ((List.range y).map
        (fun y => (c.inter.conv (tab f stride dist y x)).fabs))))
      (body := fun y sum => idxLoop c 0 length (fun x sum => do
        let v ← rd f (midIdx c stride dist y x)
        accum c sum x (c.inter.conv v).fabs) sum) (s := List.replicate length (Fl.fin false 0)) (Nat.zero_le n)
      (by
        apply List.ext_getElem (by simp)
        intro k h1 h2
        simp [fsum])
      (by
        intro y sum _ hy hP
        refine ⟨_, ?_, rfl⟩
        show idxLoop c 0 length _ sum = _
        rw [idxLoop_eq hl, loop_set_all
          (g := fun x a => c.inter.add a (c.inter.conv (tab f stride dist y x)).fabs)]
        · rw [hP, mapIdx_map_range]
          congr 1
          apply List.map_congr_left
          intro x _
          rw [fsum_succ, Nat.zero_add]
        · rw [hP]; simp
        · intro x l' a _ hx hl' ha
          rw [h.midIdx_eq hy hx, h.rd_tab hy hx]
          exact accum_eq ha)
    rw [e1, e2]
  unfold origSums
  simp only [Option.bind_eq_bind] at h1 ⊢
  rw [h1, Option.bind_some, idxLoop_eq hl, loop_set_all (g := fun _ a => c.inter.div a (c.inter.ofNat n))]
  · rw [mapIdx_map_range]; rfl
  · simp
  · intro x l' a _ hx hl' ha
    rw [show rd l' x = some a from ha]
    exact wr_eq (by omega)

/-- The test of `detect_method_original`. -/
theorem origTest_eq (h : Geom c f length n stride dist range) {x : ℕ} (h1 : range ≤ x) (h2 : x + range < length) :
    origTest c ((List.range length).map (meanMag c (tab f stride dist) n)) range x =
      some (origPasses c (tab f stride dist) n range x) := by
  have hl := h.len_idx
  set S := (List.range length).map (meanMag c (tab f stride dist) n) with hS
  have hrd : ∀ k, k < length → rd S k = some (meanMag c (tab f stride dist) n k) := by
    intro k hk
    rw [hS]; unfold rd
    rw [List.getElem?_map, List.getElem?_range hk]; rfl
  have hloop : idxLoop c 1 (range + 1) (fun i (lr : Fl × Fl) => do
      let a ← rd S (c.idxSub x i)
      let b ← rd S (c.idx (x + i))
      return (c.inter.add lr.1 a, c.inter.add lr.2 b)) (Fl.fin false 0, Fl.fin false 0) =
      some (fsum c.inter ((List.range range).map (fun i => meanMag c (tab f stride dist) n (x - (i + 1)))),
        fsum c.inter ((List.range range).map (fun i => meanMag c (tab f stride dist) n (x + (i + 1))))) := by
    rw [idxLoop_eq h.range_idx]
    obtain ⟨r, e1, e2⟩ := loop_inv
      (P := fun j (lr : Fl × Fl) => lr =
        (fsum c.inter ((List.range (j - 1)).map (fun i => meanMag c (tab f stride dist) n (x - (i + 1)))),
        fsum c.inter ((List.range (j - 1)).map (fun i => meanMag c (tab f stride dist) n (x + (i + 1))))))
      (body := fun i (lr : Fl × Fl) => do
        let a ← rd S (c.idxSub x i)
        let b ← rd S (c.idx (x + i))
        return (c.inter.add lr.1 a, c.inter.add lr.2 b)) (s := (Fl.fin false 0, Fl.fin false 0))
      (show 1 ≤ range + 1 by omega)
      rfl
      (by
        intro j lr hj1 hj2 hP
        refine ⟨_, ?_, rfl⟩
        rw [Cfg.idxSub_eq (show j ≤ x by omega) (by omega), Cfg.idx_eq (show x + j ≤ c.idxMax by omega),
          hrd _ (by omega), hrd _ (by omega), hP]
        obtain ⟨k, rfl⟩ : ∃ k, j = k + 1 := ⟨j - 1, by omega⟩
        show some _ = some _
        simp only [Nat.add_sub_cancel]
        rw [fsum_succ, fsum_succ])
    rw [e1, e2]
    rfl
  unfold origTest
  rw [hrd x (by omega)]
  simp only [Option.bind_eq_bind] at hloop ⊢
  simp only [Option.bind_some, hloop, Fl.gt]
  rfl

theorem origLoop_eq (s : Sys) (h : Geom s.cfg f length n stride dist range) {result : List Fl}
    (hlen : result.length = length - 2 * range) :
    origLoop s.cfg f ((List.range length).map (meanMag s.cfg (tab f stride dist) n)) n stride dist range result range
        (length - range) =
      some (result.mapIdx (fun k r => addScore s.cfg r (frameScore s .orig (tab f stride dist) n range (range + k)))) := by
  have hr := h.room
  have hl := h.len_idx
  unfold origLoop
  rw [idxLoop_eq (by omega)]
  apply loop_set_all (g := fun x r => addScore s.cfg r (frameScore s .orig (tab f stride dist) n range x)) (by omega)
  intro x l' a hx1 hx2 hl' ha
  rw [origTest_eq h (by omega) (by omega), signCount_eq h (by omega) (by omega), Cfg.idxSub_eq hx1 (by omega)]
  simp only [Option.bind_eq_bind, Option.bind_some, frameScore]
  by_cases hp : origPasses s.cfg (tab f stride dist) n range x = true
  · rw [if_pos hp, if_pos hp]; exact accum_eq ha
  · rw [if_neg hp, if_neg hp]
    have : x - range < l'.length := by omega
    show some l' = some (l'.set (x - range) a)
    congr 1
    symm
    apply List.ext_getElem?
    intro k
    rw [List.getElem?_set]
    split
    · rename_i hk; subst hk; rw [ha]
    · rfl

end

end Verif
