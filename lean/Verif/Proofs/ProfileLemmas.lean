import Verif.Proofs.ToolLemmas
import Verif.Spec.Profile

/-! What profile counts. -/

namespace Verif

open Spec Props

variable {s : Sys} {io : Io} {v : CliEnv} {U F : Prop} {L S : List ℕ} {W H : ℕ} {m : Option Method} {p : Option Params}

/-- The counts of `diffres` for the rest of both lists. -/
def merge : List ℕ → List ℕ → ℕ × ℕ
  | [], r => (r.length, 0)
  | l, [] => (0, l.length)
  | a :: l, b :: r =>
    if a > b then ((merge (a :: l) r).1 + 1, (merge (a :: l) r).2)
    else if a < b then ((merge l (b :: r)).1, (merge l (b :: r)).2 + 1)
    else merge l r
termination_by l r => l.length + r.length

theorem merge_nil_right (l : List ℕ) : merge l [] = (0, l.length) := by
  cases l <;> simp [merge]

theorem absent_nil (l : List ℕ) : absent l [] = l.length := by simp [absent]

theorem absent_cons_mem {a : ℕ} {l m : List ℕ} (h : a ∈ m) : absent (a :: l) m = absent l m := by simp [absent, h]

theorem absent_cons_not {a : ℕ} {l m : List ℕ} (h : a ∉ m) : absent (a :: l) m = absent l m + 1 := by simp [absent, h]

theorem absent_cons_le (a : ℕ) (l m : List ℕ) : absent (a :: l) m ≤ absent l m + 1 := by
  by_cases h : a ∈ m
  · rw [absent_cons_mem h]; omega
  · rw [absent_cons_not h]

theorem absent_more (a : ℕ) (l m : List ℕ) : absent l (a :: m) ≤ absent l m := by
  unfold absent
  refine (List.Sublist.length_le ?_)
  refine List.monotone_filter_right _ (fun x hx => ?_)
  simp only [List.mem_cons, not_or, decide_eq_true_eq] at hx ⊢
  exact hx.2

theorem absent_skip {a : ℕ} {l m : List ℕ} (h : a ∉ l) : absent l (a :: m) = absent l m := by
  unfold absent
  congr 1
  refine List.filter_congr (fun x hx => ?_)
  have : x ≠ a := by rintro rfl; exact h hx
  simp [this]

theorem merge_counted (l r : List ℕ) : Tallied l r (merge l r).1 (merge l r).2 := by
  induction l, r using merge.induct with
  | case1 r =>
    simp only [merge]
    exact ⟨by rw [absent_nil], by simp [absent], by simp, fun _ _ => ⟨(absent_nil r).symm, by simp [absent]⟩⟩
  | case2 l _ =>
    rw [merge_nil_right]
    exact ⟨by simp [absent], by rw [absent_nil], by simp, fun _ _ => ⟨by simp [absent], (absent_nil l).symm⟩⟩
  | case3 a l b r hab ih =>
    obtain ⟨h1, h2, h3, h4⟩ := ih
    have e : merge (a :: l) (b :: r) = ((merge (a :: l) r).1 + 1, (merge (a :: l) r).2) := by rw [merge, if_pos hab]
    rw [e]
    refine ⟨le_trans (absent_cons_le _ _ _) (by simp only; omega), le_trans (absent_more _ _ _) h2, ?_, fun hl hr => ?_⟩
    · simp only [List.length_cons] at h3 ⊢; omega
    · obtain ⟨k1, k2⟩ := h4 hl (List.pairwise_cons.mp hr).2
      have hb : b ∉ a :: l := by
        intro h
        rcases List.mem_cons.mp h with rfl | h
        · omega
        · have := (List.pairwise_cons.mp hl).1 b h; omega
      rw [absent_cons_not hb, absent_skip hb]
      exact ⟨by simp only; omega, k2⟩
  | case4 a l b r hab hba ih =>
    obtain ⟨h1, h2, h3, h4⟩ := ih
    have e : merge (a :: l) (b :: r) = ((merge l (b :: r)).1, (merge l (b :: r)).2 + 1) := by rw [merge, if_neg hab, if_pos hba]
    rw [e]
    refine ⟨le_trans (absent_more _ _ _) h1, le_trans (absent_cons_le _ _ _) (by simp only; omega), ?_, fun hl hr => ?_⟩
    · simp only [List.length_cons] at h3 ⊢; omega
    · obtain ⟨k1, k2⟩ := h4 (List.pairwise_cons.mp hl).2 hr
      have ha : a ∉ b :: r := by
        intro h
        rcases List.mem_cons.mp h with rfl | h
        · omega
        · have := (List.pairwise_cons.mp hr).1 a h; omega
      rw [absent_cons_not ha, absent_skip ha]
      exact ⟨k1, by simp only; omega⟩
  | case5 a l b r hab hba ih =>
    obtain ⟨h1, h2, h3, h4⟩ := ih
    have he : a = b := by omega
    subst he
    have e : merge (a :: l) (a :: r) = merge l r := by rw [merge, if_neg hab, if_neg hba]
    rw [e]
    refine ⟨?_, ?_, ?_, fun hl hr => ?_⟩
    · rw [absent_cons_mem (by simp)]
      exact le_trans (absent_more _ _ _) h1
    · rw [absent_cons_mem (by simp)]
      exact le_trans (absent_more _ _ _) h2
    · simp only [List.length_cons]; omega
    · obtain ⟨k1, k2⟩ := h4 (List.pairwise_cons.mp hl).2 (List.pairwise_cons.mp hr).2
      have ha : a ∉ l := fun h => absurd ((List.pairwise_cons.mp hl).1 a h) (lt_irrefl _)
      have hb : a ∉ r := fun h => absurd ((List.pairwise_cons.mp hr).1 a h) (lt_irrefl _)
      rw [absent_cons_mem (by simp), absent_cons_mem (by simp), absent_skip ha, absent_skip hb]
      exact ⟨k1, k2⟩

theorem sz_add (c : Cfg) (a b : ℕ) : c.sz (c.sz a + b) = c.sz (a + b) := by unfold Cfg.sz; rw [Nat.mod_add_mod]

theorem diffres_eq {c : Cfg} {left : List ℕ} {right : List Res} {n fuel l r plus minus : ℕ} (hn : n ≤ right.length)
    (hf : (left.length - l) + (n - r) < fuel) (hl : l ≤ left.length) (hr : r ≤ n) : diffres c left left.length right n fuel l r plus minus =
      some (c.sz (plus + (merge (left.drop l) (((right.take n).map Res.index).drop r)).1),
        c.sz (minus + (merge (left.drop l) (((right.take n).map Res.index).drop r)).2)) := by
  induction fuel generalizing l r plus minus with
  | zero => omega
  | succ fuel ih =>
    unfold diffres
    have hlen : ((right.take n).map Res.index).length = n := by rw [List.length_map, List.length_take]; omega
    by_cases hlr : l < left.length ∧ r < n
    · rw [if_pos hlr, rd_lt hlr.1, rd_lt (lt_of_lt_of_le hlr.2 hn)]
      simp only [Option.bind_eq_bind, Option.bind_some]
      have d1 : left.drop l = left[l] :: left.drop (l + 1) := List.drop_eq_getElem_cons hlr.1
      have d2 : ((right.take n).map Res.index).drop r = right[r].index :: ((right.take n).map Res.index).drop (r + 1) := by
        rw [List.drop_eq_getElem_cons (by rw [hlen]; exact hlr.2)]
        simp
      by_cases h1 : left[l] > right[r].index
      · have e : merge (left.drop l) (((right.take n).map Res.index).drop r) =
            ((merge (left.drop l) (((right.take n).map Res.index).drop (r + 1))).1 + 1,
             (merge (left.drop l) (((right.take n).map Res.index).drop (r + 1))).2) := by
          rw [d2, d1, merge, if_pos h1]
        rw [if_pos h1, ih (by omega) hl (by omega), e, sz_add]
        simp only
        congr 3
        omega
      · by_cases h2 : left[l] < right[r].index
        · have e : merge (left.drop l) (((right.take n).map Res.index).drop r) =
              ((merge (left.drop (l + 1)) (((right.take n).map Res.index).drop r)).1,
               (merge (left.drop (l + 1)) (((right.take n).map Res.index).drop r)).2 + 1) := by
            rw [d2, d1, merge, if_neg h1, if_pos h2]
          rw [if_neg h1, if_pos h2, ih (by omega) (by omega) hr, e, sz_add]
          simp only
          congr 3
          omega
        · have e : merge (left.drop l) (((right.take n).map Res.index).drop r) =
              merge (left.drop (l + 1)) (((right.take n).map Res.index).drop (r + 1)) := by
            rw [d2, d1, merge, if_neg h1, if_neg h2]
          rw [if_neg h1, if_neg h2, ih (by omega) (by omega) (by omega), e]
    · rw [if_neg hlr]
      rcases Nat.lt_or_ge l left.length with h1 | h1
      · have h2 : r = n := by
          rcases Nat.lt_or_ge r n with h2 | h2
          · exact absurd ⟨h1, h2⟩ hlr
          · omega
        have : ((right.take n).map Res.index).drop r = [] := List.drop_eq_nil_of_le (by omega)
        rw [this, merge_nil_right, List.length_drop, h2]
        simp
      · have : left.drop l = [] := List.drop_eq_nil_of_le h1
        rw [this]
        simp only [merge]
        rw [List.length_drop, hlen]
        have : left.length - l = 0 := by omega
        rw [this]

theorem fed_last {fs : List (List Fl)} {e : RDError} {ev : List (Call × Obs)} (h : Fed fs e ev) (he : e ≠ RDEOK) : ∃ c, (c, Obs.analyzed e) ∈ ev := by
  induction h with
  | done => exact absurd rfl he
  | refused f fs e w _ => exact ⟨_, List.mem_singleton_self _⟩
  | next f fs e ev w _ ih => obtain ⟨c, hc⟩ := ih he; exact ⟨c, List.mem_cons_of_mem _ hc⟩

theorem reach_code (hs : Build s) (hm : ValidMethod? m) (hp : ValidParams? s.cfg p) {ev : List (Call × Obs)} {a : Analysis} (hr : Reach s m W H p ev a)
    {c : Call} {e : RDError} (h : (c, Obs.analyzed e) ∈ ev) : Printable s.cfg e := by
  induction hr with
  | create _ _ => simp at h
  | @call ev a c' o a' hr hl hst ih =>
    rcases List.mem_append.mp h with h | h
    · exact ih h
    · rw [List.mem_singleton] at h
      cases h
      have := (C23_codes (w := W) (h := H) hs hm hp).2 _ _ _ _ _ hr hl hst e (Or.inl rfl)
      revert this
      simp only [messages, List.map_cons, List.map_nil, List.mem_cons, List.not_mem_nil, or_false, Printable]
      show (e : ℤ) = 0 ∨ _ → _
      generalize (e : ℤ) = e
      have : (0 : ℤ) ≤ (s.cfg.intMax : ℤ) := Int.natCast_nonneg _
      rintro (h | h | h | h | h | h | h | h) <;> rw [h] <;> refine ⟨le_trans (Int.neg_nonpos_of_nonneg this) (by decide), by decide⟩

theorem DetectError.why {frames : List (List Fl)} {e : RDError} (h : DetectError s F W H frames e) : F ∨ Failing s W H frames := by
  obtain ⟨h0, ⟨_, h⟩ | h | ⟨_, h⟩ | h⟩ := h
  · exact Or.inl h
  · exact Or.inr (Or.inl (h ▸ h0))
  · exact Or.inr (Or.inr (Or.inl h))
  · exact Or.inr (Or.inr (Or.inr (h ▸ h0)))

/-- What detection in one image returns. -/
theorem detection_act (hs : Build s) {m : Method} (hm : m ∈ methods) {image : List Fl} {d w h : ℕ}
    (h1 : image.length ≤ s.cfg.sizeMax) (h2 : d * (w * h) ≤ image.length) (hF : LinesTooBig s.cfg w h → F) :
    Act False F L S (resdetect s (some image) d w h Ptrs.all (some m) none) (fun r L' S' => S' = S ∧
      (r.2 = Out.nothing ∧ (∃ X, L'.Perm (X ++ L)) ∧ Printable s.cfg r.1 ∧ DetectError s F w h (framesOf image w h d) r.1 ∨
      r.1 = 0 ∧ ∃ ev a b1 b2 l1 l2 x1 x2, Fed (framesOf image w h d) RDEOK ev ∧ Lists s (some m) w h none ev a r.2 b1 b2 l1 l2 x1 x2 ∧
        L'.Perm (b1.id :: b2.id :: L))) := by
  have hm' : ValidMethod? (some m) := by intro x hx; cases hx; exact hm
  have hp : ValidParams? s.cfg none := by simp [ValidParams?]
  refine Act.mono (Act.ofTri (resdetect_tri (image := some image) (ptr := Ptrs.all) hs hm' hp (by rintro im hi; cases hi; exact ⟨h1, h2⟩) hF)) ?_
  rintro ⟨e, out⟩ L' S' ⟨rfl, hd⟩
  refine ⟨rfl, ?_⟩
  have pr : ∀ e : ℤ, 0 ≤ e → e ≤ 7 → Printable s.cfg e := fun e h1 h2 => ⟨by omega, h2⟩
  rcases hd with ⟨_, _, h3 | h3⟩ | ⟨_, ⟨_, h3, rfl, hd0⟩ | ⟨hd0, im, him, hd⟩⟩
  · simp [Ptrs.all] at h3
  · simp at h3
  · cases h3
    exact Or.inl ⟨rfl, ⟨[], List.Perm.refl _⟩, pr _ (by decide) (by decide), by decide, Or.inr (Or.inr (Or.inl ⟨rfl, by simp [framesOf, hd0]⟩))⟩
  · cases him
    cases hd with
    | create e L' hc =>
      left
      have : Printable s.cfg e ∧ DetectError s F w h (framesOf image w h d) e ∧ ∃ X, L' = X ++ L := by
        cases hc with
        | zero h =>
          refine ⟨pr _ (by decide) (by decide), ⟨by decide, Or.inr (Or.inl ?_)⟩, [], rfl⟩
          unfold expected
          rw [if_pos h]
        | toobig h1 h2 h3 =>
          refine ⟨pr _ (by decide) (by decide), ⟨by decide, Or.inr (Or.inl ?_)⟩, [], rfl⟩
          unfold expected
          rw [if_neg (by omega), if_pos]
          rcases h3 with h3 | h3 | h3
          · unfold Fits at h3; omega
          · exact Or.inr (Or.inr (Or.inl h3))
          · exact Or.inr (Or.inr (Or.inr h3))
        | internal h1 h2 h3 h4 h5 h6 h7 =>
          refine ⟨pr _ (by decide) (by decide), ⟨by decide, Or.inr (Or.inl ?_)⟩, [], rfl⟩
          unfold expected
          rw [if_neg (by omega), if_neg, if_pos ⟨h6, h7⟩]
          unfold Fits at h3; omega
        | nomem L' hf h =>
          refine ⟨pr _ (by decide) (by decide), ⟨by decide, Or.inl ⟨rfl, hf⟩⟩, ?_⟩
          rcases h with rfl | ⟨_, _, x, rfl⟩
          · exact ⟨[], rfl⟩
          · exact ⟨[x], rfl⟩
      obtain ⟨hpr, hwhy, X, rfl⟩ := this
      exact ⟨rfl, ⟨X, List.Perm.refl _⟩, hpr, hwhy⟩
    | refused ev a e hr hf hne hnm =>
      obtain ⟨c, hc⟩ := fed_last hf hne
      refine Or.inl ⟨rfl, ⟨[], List.Perm.refl _⟩, reach_code hs hm' hp hr hc, hne, ?_⟩
      rcases fed_code hs hm' hp hr hf with h | h
      · exact Or.inl ⟨h, hnm h⟩
      · exact Or.inr (Or.inr (Or.inr h))
    | results ev a c e out L' g1 g2 g3 g4 g5 g6 g7 g8 =>
      by_cases h0 : e = 0
      · subst h0
        obtain ⟨b1, b2, l1, l2, x1, x2, hl⟩ := lists_of_results hs hm' hp g1 g3 g4 g5
        refine Or.inr ⟨rfl, ev, a, b1, b2, l1, l2, x1, x2, g2, hl, ?_⟩
        rw [hl.rw, hl.rh] at g8
        exact g8
      · have := g6 h0
        have hL : L'.Perm L := by rw [this] at g8; exact g8
        have hpr : Printable s.cfg e := by
          rcases results_code hs (reach_inv hs hm' hp g1).good g3 g4 g5 with ⟨h, _⟩ | h | h | h <;> rw [h] <;> exact pr _ (by decide) (by decide)
        refine Or.inl ⟨this, ⟨[], hL⟩, hpr, h0, ?_⟩
        rcases results_code hs (reach_inv hs hm' hp g1).good g3 g4 g5 with ⟨_, hr⟩ | hr | hr | hr
        · simp [Ptrs.all] at hr
        · refine Or.inr (Or.inr (Or.inl ⟨hr, ?_⟩))
          obtain ⟨f1, _⟩ := fed_ok g2
          have he : analysed ev = ev := by
            refine List.filter_eq_self.mpr fun x hx => ?_
            have := List.mem_map_of_mem (f := fun x => x.2) hx
            rw [f1] at this
            simp [List.eq_of_mem_replicate this]
          have hl : ev.length = (framesOf image w h d).length := by
            rw [← List.length_map (fun x : Call × Obs => x.2), f1, List.length_replicate]
          have hk : (analysed ev).length ≤ s.cfg.sizeMax := by
            rw [he, hl]
            have hx := reach_expected hs hm' hp g1
            unfold expected at hx
            have hpos : 0 < w * h := by
              by_contra hc
              have : w = 0 ∨ h = 0 := by
                rcases Nat.eq_zero_or_pos w with h3 | h3
                · exact Or.inl h3
                · rcases Nat.eq_zero_or_pos h with h4 | h4
                  · exact Or.inr h4
                  · exact absurd (Nat.mul_pos h3 h4) hc
              rw [if_pos this] at hx
              revert hx
              decide
            simp only [framesOf, List.length_map, List.length_range]
            calc d ≤ d * (w * h) := Nat.le_mul_of_pos_right _ hpos
              _ ≤ _ := le_trans h2 h1
          have := (C10_noimg_iff hs hm' hp g1 hk g3 g4 (fun _ => rfl) (fun _ => rfl) g5).mp hr
          rw [he] at this
          rw [this] at hl
          exact List.length_eq_zero_iff.mp hl.symm
        · exact Or.inl ⟨hr, g7 hr⟩
        · exact absurd hr h0

/-- The figures of one method for one image. -/
theorem profileMethod_act (hs : Build s) {m : Method} (hm : m ∈ methods) {image : List Fl} {d w h : ℕ}
    (h1 : image.length ≤ s.cfg.sizeMax) (h2 : d * (w * h) ≤ image.length) (hF : LinesTooBig s.cfg w h → F)
    (kw kh : List ℕ) : Act False F L S (profileMethod s v image d w h kw kh m) (fun r L' S' => (∃ X, L'.Perm (X ++ L)) ∧ S' = S ∧ (r = none ∧ (F ∨ Failing s w h (framesOf image w h d)) ∨
      L'.Perm L ∧ ∃ ev a l1 x1 l2 x2, Fed (framesOf image w h d) RDEOK ev ∧
        Returned s (some m) w h none ev a (some (l1 ++ [x1])) (l1.length + 1) (some (l2 ++ [x2])) (l2.length + 1) ∧
        r = some (s.cfg.sz ((merge kw (l1.map Res.index)).1 + (merge kh (l2.map Res.index)).1),
          s.cfg.sz ((merge kw (l1.map Res.index)).2 + (merge kh (l2.map Res.index)).2)))) := by
  unfold profileMethod
  refine Act.bind (detection_act hs hm h1 h2 hF) ?_
  rintro ⟨e, out⟩ L' S' ⟨rfl, ⟨h3, hX, hpr, he⟩ | ⟨h3, ev, a, b1, b2, l1, l2, x1, x2, g2, hl, g8⟩⟩
  · have h3 : out = Out.nothing := h3
    subst h3
    simp only
    rw [if_pos (show e ≠ 0 from he.1)]
    obtain ⟨t, ht⟩ := printable_str hpr v.strerror
    refine Act.bind (Act.need (Q := fun a l s' => a = some t ∧ l = L' ∧ s' = S') ht ⟨rfl, rfl, rfl⟩) ?_
    rintro _ _ _ ⟨rfl, rfl, rfl⟩
    refine Act.bind (Act.need (Q := fun a l s' => l = _ ∧ s' = _) rfl ⟨rfl, rfl⟩) ?_
    rintro _ _ _ ⟨rfl, rfl⟩
    exact Act.bind (Act.pure (Q := fun _ l s' => l = _ ∧ s' = _) ⟨rfl, rfl⟩) (by
      rintro _ _ _ ⟨rfl, rfl⟩
      exact Act.bind (Act.pure (Q := fun _ l s' => l = _ ∧ s' = _) ⟨rfl, rfl⟩) (by
        rintro _ _ _ ⟨rfl, rfl⟩
        exact Act.pure ⟨hX, rfl, Or.inl ⟨rfl, DetectError.why he⟩⟩))
  · have h3 : e = 0 := h3
    subst h3
    simp only
    rw [if_neg (by simp)]
    have hl : Lists s (some m) w h none ev a out b1 b2 l1 l2 x1 x2 := hl
    rw [hl.rw, hl.rh, hl.cw, hl.ch, szSub_one hl.small1, szSub_one hl.small2]
    have k1 : diffres s.cfg kw kw.length b1.data l1.length (kw.length + l1.length + 1) 0 0 0 0 = _ :=
      diffres_eq (by rw [hl.width]; simp) (by omega) (by omega) (by omega)
    refine Act.bind (Act.need (Q := fun a l s' => a = b1 ∧ l = L' ∧ s' = S') rfl ⟨rfl, rfl, rfl⟩) ?_
    rintro d1 _ _ ⟨i1, rfl, rfl⟩
    subst d1
    refine Act.bind (Act.need (Q := fun a l s' => a = _ ∧ l = _ ∧ s' = _) k1 ⟨rfl, rfl, rfl⟩) ?_
    rintro _ _ _ ⟨rfl, rfl, rfl⟩
    simp only
    refine Act.bind (Act.need (Q := fun a l s' => a = b2 ∧ l = _ ∧ s' = _) rfl ⟨rfl, rfl, rfl⟩) ?_
    rintro d1 _ _ ⟨i1, rfl, rfl⟩
    subst d1
    have k2 := fun p q => diffres_eq (c := s.cfg) (left := kh) (right := b2.data) (n := l2.length) (fuel := kh.length + l2.length + 1) (l := 0) (r := 0)
      (plus := p) (minus := q) (by rw [hl.height]; simp) (by omega) (by omega) (by omega)
    refine Act.bind (Act.need (Q := fun a l s' => a = _ ∧ l = _ ∧ s' = _) (k2 _ _) ⟨rfl, rfl, rfl⟩) ?_
    rintro _ _ _ ⟨rfl, rfl, rfl⟩
    refine Act.bind (freeBuf_act (b := some b1) g8) ?_
    rintro _ L2 _ ⟨h3, rfl⟩
    refine Act.bind (freeBuf_act (b := some b2) h3) ?_
    rintro _ L3 S3 ⟨h4, rfl⟩
    refine Act.pure ⟨⟨[], h4⟩, rfl, Or.inr ⟨h4, ev, a, l1, x1, l2, x2, g2, hl.returned, ?_⟩⟩
    simp only [hl.width, hl.height, List.take_left, List.drop_zero, Nat.zero_add, sz_add]

theorem strsep_ne (t : List UInt8) : strsep t ≠ [] := by
  cases t with
  | nil => simp [strsep]
  | cons b t =>
    unfold strsep
    split_ifs
    · simp
    · split <;> simp

theorem strsep_piece {p t : List UInt8} (hp : ch ' ' ∉ p) : strsep (p ++ ch ' ' :: t) = p :: strsep t := by
  induction p with
  | nil => simp [strsep]
  | cons b p ih =>
    have hb : b ≠ ch ' ' := fun h => hp (by rw [h]; exact List.mem_cons_self)
    rw [List.cons_append, strsep, if_neg hb, ih (fun h => hp (List.mem_cons_of_mem _ h))]

theorem strsep_last {p : List UInt8} (hp : ch ' ' ∉ p) : strsep p = [p] := by
  induction p with
  | nil => simp [strsep]
  | cons b p ih =>
    have hb : b ≠ ch ' ' := fun h => hp (by rw [h]; exact List.mem_cons_self)
    rw [strsep, if_neg hb, ih (fun h => hp (List.mem_cons_of_mem _ h))]

theorem digits_space {ds : List UInt8} (h : Digits ds) : ch ' ' ∉ ds := fun hc => by
  have := (h _ hc).1
  revert this
  decide

theorem strtou_numeral {n max : ℕ} {ds : List UInt8} (h : Numeral n ds) (hn : n ≤ max) : strtou max ds = some n := by
  rw [strtou_iff]
  exact ⟨false, n, ⟨[], [], ds, [], by simp, by simp [Blank], h, by simp, Or.inr ⟨rfl, Or.inl rfl⟩⟩, Or.inr (Or.inl ⟨hn, Or.inl rfl, rfl⟩)⟩

theorem sizeLine_pieces {ns : List ℕ} {t : List UInt8} (h : SizeLine ns t) {max : ℕ} (hn : ∀ n ∈ ns, n ≤ max) : (strsep t).mapM (strtou max) = some ns := by
  induction h with
  | last n ds h => rw [strsep_last (digits_space h.2.1)]; simp [strtou_numeral h (hn n (by simp))]
  | more n ds ns t h _ ih =>
    rw [strsep_piece (digits_space h.2.1), List.mapM_cons, strtou_numeral h (hn n (by simp)), ih (fun k hk => hn k (List.mem_cons_of_mem _ hk))]
    rfl

theorem sizeLine_nul {ns : List ℕ} {t : List UInt8} (h : SizeLine ns t) : ∀ b ∈ t, b ≠ 0 := by
  have dig : ∀ {ds : List UInt8}, Digits ds → ∀ b ∈ ds, b ≠ 0 := by
    intro ds h b hb h0
    have := (h b hb).1
    rw [h0] at this
    revert this
    decide
  induction h with
  | last n ds h => exact dig h.2.1
  | more n ds ns t h _ ih =>
    intro b hb
    rcases List.mem_append.mp hb with hb | hb
    · exact dig h.2.1 b hb
    · rcases List.mem_cons.mp hb with rfl | hb
      · decide
      · exact ih b hb

theorem chop_line {t : List UInt8} (h : ∀ b ∈ t, b ≠ 0) (x : UInt8) : chop (t ++ [x]) = t := by
  unfold chop
  rw [List.dropLast_concat, List.takeWhile_eq_self_iff]
  simpa using h

/-- `readres` after an array of `prev` has been allocated as `ar`. -/
theorem readresLoop_act {c : Cfg} {ts : List (List UInt8)} {ar : Option (Buf ℕ)} {L1 : List ℕ} (hL : L1 = (ar.map Buf.id).toList ++ L) (hne : ar = none → ts ≠ []) :
    Act False F L1 S (readresLoop c ts ar) (fun r L' S' => S' = S ∧
      (r = none ∧ L'.Perm L ∧ (F ∨ ts.mapM (strtou ullMax) = none) ∨
        ∃ b ks, ts.mapM (strtou ullMax) = some ks ∧ r = some ⟨b, (ar.map Buf.data).getD [] ++ ks.map c.sz⟩ ∧ L' = b :: L)) := by
  induction ts generalizing ar L1 with
  | nil =>
    cases ar with
    | none => exact absurd rfl (hne rfl)
    | some b => exact Act.pure ⟨rfl, Or.inr ⟨b.id, [], rfl, by simp, by rw [hL]; rfl⟩⟩
  | cons t ts ih =>
    have body : ∀ tmp L2, (tmp = none → L2 = L1 ∧ F) → (∀ b, tmp = some b → L2 = b :: L) →
        Act False F L2 S (match tmp with
          | none => do
            freeBuf ar
            return none
          | some b =>
            match strtou ullMax t with
            | none => do
              free (some b)
              return none
            | some n => readresLoop c ts (some ⟨b, ((ar.map Buf.data).getD []) ++ [c.sz n]⟩)) (fun r L' S' => S' = S ∧
      (r = none ∧ L'.Perm L ∧ (F ∨ (t :: ts).mapM (strtou ullMax) = none) ∨
        ∃ b ks, (t :: ts).mapM (strtou ullMax) = some ks ∧ r = some ⟨b, (ar.map Buf.data).getD [] ++ ks.map c.sz⟩ ∧ L' = b :: L)) := by
      intro tmp L2 h1 h2
      cases tmp with
      | none =>
        obtain ⟨rfl, hF⟩ := h1 rfl
        refine Act.bind (freeBuf_act (L := L) (b := ar) (by rw [hL])) ?_
        rintro _ L3 _ ⟨h3, rfl⟩
        exact Act.pure ⟨rfl, Or.inl ⟨rfl, h3, Or.inl hF⟩⟩
      | some b =>
        have := h2 b rfl
        subst this
        simp only
        cases hs : strtou ullMax t with
        | none =>
          simp only
          refine Act.bind (Act.free (R := L) (List.Perm.refl _)) ?_
          rintro _ _ _ ⟨rfl, rfl⟩
          exact Act.pure ⟨rfl, Or.inl ⟨rfl, List.Perm.refl _, Or.inr (by rw [List.mapM_cons, hs]; rfl)⟩⟩
        | some n =>
          simp only
          refine Act.mono (ih (ar := some ⟨b, ((ar.map Buf.data).getD []) ++ [c.sz n]⟩) rfl (by simp)) ?_
          rintro r L' S' ⟨rfl, ⟨rfl, hp, h⟩ | ⟨b', ks, h, rfl, rfl⟩⟩
          · refine ⟨rfl, Or.inl ⟨rfl, hp, h.imp_right (fun h => ?_)⟩⟩
            rw [List.mapM_cons, hs, h]; rfl
          · refine ⟨rfl, Or.inr ⟨b', n :: ks, ?_, by simp, rfl⟩⟩
            rw [List.mapM_cons, hs, h]; rfl
    unfold readresLoop
    cases ar with
    | none =>
      refine Act.bind Act.malloc ?_
      rintro tmp L2 _ ⟨rfl, ⟨rfl, rfl, h⟩ | ⟨b, rfl, rfl⟩⟩
      · exact body none _ (fun _ => ⟨rfl, h⟩) (by simp)
      · exact body (some b) _ (by simp) (by rintro _ ⟨rfl⟩; rw [hL]; rfl)
    | some b =>
      refine Act.bind (Act.realloc (R := L) (by rw [hL]; exact List.Perm.refl _)) ?_
      rintro tmp L2 _ ⟨rfl, ⟨rfl, rfl, h⟩ | ⟨b, rfl, rfl⟩⟩
      · exact body none _ (fun _ => ⟨rfl, h⟩) (by simp)
      · exact body (some b) _ (by simp) (by rintro _ ⟨rfl⟩; rfl)

/-- What `readres` makes of a line. -/
theorem readres_act {c : Cfg} (t : List UInt8) : Act False F L S (readres c t) (fun r L' S' => S' = S ∧
      (r = none ∧ L'.Perm L ∧ (F ∨ (strsep t).mapM (strtou ullMax) = none) ∨
        ∃ b ks, (strsep t).mapM (strtou ullMax) = some ks ∧ r = some ⟨b, ks.map c.sz⟩ ∧ L' = b :: L)) :=
  readresLoop_act (by simp) (fun _ => strsep_ne t)

end Verif
