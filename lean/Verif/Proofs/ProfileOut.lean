import Verif.Proofs.ToolsText
import Verif.Proofs.Profile

/-! # profile with its text and times -/

namespace Verif

open Spec Props

variable {s : Sys} {io : Io} {v : CliEnv} {clock : ℕ → Timeval} {F : Prop} {L S : List ℕ}

/-! ## Without the text it is the program of `Model/Tools.lean` -/

theorem profileMethodOut_fst {image : List Fl} {d w h : ℕ} {kw kh : List ℕ} {m : Method} {k : ℕ} :
    (fun r => r.1.figures) <$> profileMethodOut s v clock image d w h kw kh m k = profileMethod s v image d w h kw kh m := by
  unfold profileMethodOut profileMethod
  rw [map_bind]
  refine bind_congr fun ⟨e, out⟩ => ?_
  simp only
  split
  · simp only [map_bind, map_pure]
    rfl
  · simp only [map_bind, map_pure]
    rfl

theorem profileMethodsOut_fst {image : List Fl} {d w h : ℕ} {kw kh : List ℕ} {ms : List Method} {k : ℕ} :
    (fun r => r.1.map Timed.figures) <$> profileMethodsOut s v clock image d w h kw kh ms k = profileMethods s v image d w h kw kh ms := by
  induction ms generalizing k with
  | nil => rfl
  | cons m ms ih =>
    unfold profileMethodsOut profileMethods
    rw [← profileMethodOut_fst (clock := clock) (k := k), map_bind, ← bind_pure_comp, bind_assoc]
    refine bind_congr fun ⟨x, o, k⟩ => ?_
    rw [pure_bind, ← ih (k := k), map_bind, ← bind_pure_comp, bind_assoc]
    refine bind_congr fun ⟨l, o', k⟩ => ?_
    rw [pure_bind, map_pure]
    rfl

theorem profileImageOut_fst {image : Buf Fl} {d w h : ℕ} {lines : List (List UInt8)} {k : ℕ} :
    (fun r => (r.1.1.map (List.map Timed.figures), r.1.2)) <$> profileImageOut s v clock image d w h lines k = profileImage s v image d w h lines := by
  unfold profileImageOut profileImage
  split
  · simp only [map_bind, map_pure]
    rfl
  · rw [map_bind]
    refine bind_congr fun r => ?_
    split
    · simp only [map_bind, map_pure]
      rfl
    · split
      · simp only [map_bind, map_pure]
        rfl
      · rw [map_bind]
        refine bind_congr fun r => ?_
        split
        · simp only [map_bind, map_pure]
          rfl
        · simp only
          rw [← profileMethodsOut_fst (clock := clock) (k := k), map_bind, ← bind_pure_comp, bind_assoc]
          refine bind_congr fun ⟨l, o, k⟩ => ?_
          rw [pure_bind]
          simp only [map_bind, map_pure]
          rfl

theorem profileLoopOut_fst {fuel : ℕ} {lines : List (List UInt8)} {k : ℕ} :
    (fun r => (r.1.1.map (List.map Timed.figures), r.1.2)) <$> profileLoopOut s io v clock fuel lines k = profileLoop s io v fuel lines := by
  induction fuel generalizing lines k with
  | zero => rfl
  | succ fuel ih =>
    cases lines with
    | nil => rfl
    | cons line lines =>
      unfold profileLoopOut profileLoop
      split
      · exact ih
      · rw [map_bind]
        refine bind_congr fun o => ?_
        split
        · simp only [map_bind]
          refine bind_congr fun msg => bind_congr fun msg => ?_
          match lines with
          | _ :: _ :: lines =>
            simp only
            rw [← ih (k := k), map_bind, ← bind_pure_comp]
            refine bind_congr fun r => ?_
            rw [map_pure]
          | [] => rfl
          | [_] => rfl
        · rw [map_bind]
          refine bind_congr fun image => ?_
          rw [← profileImageOut_fst (clock := clock) (k := k), map_bind, ← bind_pure_comp, bind_assoc]
          refine bind_congr fun ⟨⟨l, ls⟩, o, k⟩ => ?_
          rw [pure_bind]
          cases l with
          | none => simp only [map_pure, Option.map_none]; rfl
          | some l =>
            simp only [Option.map_some]
            have : (l.map Timed.figures).any Option.isNone = l.any Option.isNone := by
              rw [List.any_map]
              congr 1
              funext x
              cases x <;> rfl
            rw [this]
            split
            · rw [map_pure]
              rfl
            · rw [← ih (k := k), map_bind, ← bind_pure_comp, bind_assoc]
              refine bind_congr fun ⟨⟨ls, ret⟩, o'⟩ => ?_
              rw [pure_bind, map_pure]
              rfl

theorem profileMainOut_fst {lines : List (List UInt8)} :
    (fun r => (⟨r.images.map (List.map Timed.figures), r.totals, r.code⟩ : Profile)) <$> profileMainOut s io v clock lines = profileMain s io v lines := by
  unfold profileMainOut profileMain
  rw [← profileLoopOut_fst (clock := clock) (k := 0), map_bind, ← bind_pure_comp, bind_assoc]
  refine bind_congr fun ⟨⟨ls, ret⟩, o⟩ => ?_
  rw [pure_bind, map_pure]

/-! ## What is told -/

/-- What one method leaves behind. -/
theorem profileMethodOut_act (hs : Build s) {m : Method} (hm : m ∈ methods) {image : List Fl} {d w h : ℕ}
    (h1 : image.length ≤ s.cfg.sizeMax) (h2 : d * (w * h) ≤ image.length) (hF : LinesTooBig s.cfg w h → F)
    (kw kh : List ℕ) (k : ℕ) : Act False F L S (profileMethodOut s v clock image d w h kw kh m k) (fun r L' S' => (∃ X, L'.Perm (X ++ L)) ∧ S' = S ∧
      ((∃ e msg, DetectError s F w h (framesOf image w h d) e ∧ resdetErrorStr s.cfg v.strerror e = some (some msg) ∧
        r = (none, ⟨[], cs "Error during detection: " ++ cs msg ++ [ch '\n']⟩, k + 1)) ∨
      L'.Perm L ∧ ∃ plus minus, Figure s F (kw, kh) w h (framesOf image w h d) m (some (plus, minus)) ∧
        r = (some (diffts (clock k) (clock (k + 1)), plus, minus),
          ⟨profileRow (profilePadding methods) m (diffts (clock k) (clock (k + 1))) plus minus, []⟩, k + 2))) := by
  unfold profileMethodOut
  refine Act.bind (detection_act hs hm h1 h2 hF) ?_
  rintro ⟨e, out⟩ L' S' ⟨rfl, ⟨h3, hX, hpr, he⟩ | ⟨h3, ev, a, b1, b2, l1, l2, x1, x2, g2, hl, g8⟩⟩
  · have h3 : out = Out.nothing := h3
    subst h3
    simp only
    rw [if_pos (show e ≠ 0 from he.1)]
    obtain ⟨t, ht⟩ := printable_str hpr v.strerror
    refine Act.bind (Act.need (Q := fun a l s' => a = some t ∧ l = L' ∧ s' = S') ht ⟨rfl, rfl, rfl⟩) ?_
    rintro _ _ _ ⟨rfl, rfl, rfl⟩
    refine Act.bind (Act.need (Q := fun a l s' => a = t ∧ l = _ ∧ s' = _) rfl ⟨rfl, rfl, rfl⟩) ?_
    rintro _ _ _ ⟨rfl, rfl, rfl⟩
    exact Act.bind (Act.pure (Q := fun _ l s' => l = _ ∧ s' = _) ⟨rfl, rfl⟩) (by
      rintro _ _ _ ⟨rfl, rfl⟩
      exact Act.bind (Act.pure (Q := fun _ l s' => l = _ ∧ s' = _) ⟨rfl, rfl⟩) (by
        rintro _ _ _ ⟨rfl, rfl⟩
        exact Act.pure ⟨hX, rfl, Or.inl ⟨_, _, he, ht, rfl⟩⟩))
  · have h3 : e = 0 := h3
    subst h3
    simp only
    rw [if_neg (by simp)]
    have hl : Lists s (some m) w h none ev a out b1 b2 l1 l2 x1 x2 := hl
    rw [hl.rw, hl.rh, hl.cw, hl.ch, szSub_one hl.small1, szSub_one hl.small2]
    have k1 : diffres s.cfg kw kw.length b1.data l1.length (kw.length + l1.length + 1) 0 0 0 0 = _ :=
      diffres_eq (by rw [hl.width]; simp) (by omega) (by omega) (by omega)
    refine Act.bind (Act.need (Q := fun a l s' => a = b1 ∧ l = L' ∧ s' = S') rfl ⟨rfl, rfl, rfl⟩) ?_
    rintro d1 _ _ ⟨i1, rfl, rfl⟩
    subst d1
    refine Act.bind (Act.need (Q := fun a l s' => a = _ ∧ l = _ ∧ s' = _) k1 ⟨rfl, rfl, rfl⟩) ?_
    rintro _ _ _ ⟨rfl, rfl, rfl⟩
    simp only
    refine Act.bind (Act.need (Q := fun a l s' => a = b2 ∧ l = _ ∧ s' = _) rfl ⟨rfl, rfl, rfl⟩) ?_
    rintro d1 _ _ ⟨i1, rfl, rfl⟩
    subst d1
    have k2 := fun p q => diffres_eq (c := s.cfg) (left := kh) (right := b2.data) (n := l2.length) (fuel := kh.length + l2.length + 1) (l := 0) (r := 0)
      (plus := p) (minus := q) (by rw [hl.height]; simp) (by omega) (by omega) (by omega)
    refine Act.bind (Act.need (Q := fun a l s' => a = _ ∧ l = _ ∧ s' = _) (k2 _ _) ⟨rfl, rfl, rfl⟩) ?_
    rintro _ _ _ ⟨rfl, rfl, rfl⟩
    refine Act.bind (freeBuf_act (b := some b1) g8) ?_
    rintro _ L2 _ ⟨h3, rfl⟩
    refine Act.bind (freeBuf_act (b := some b2) h3) ?_
    rintro _ L3 S3 ⟨h4, rfl⟩
    refine Act.pure ⟨⟨[], h4⟩, rfl, Or.inr ⟨h4, _, _, ?_, rfl⟩⟩
    refine ⟨ev, a, l1, x1, l2, x2, g2, hl.returned, _, _, _, _, merge_counted _ _, merge_counted _ _, ?_, ?_⟩ <;>
      simp only [hl.width, hl.height, List.take_left, List.drop_zero, Nat.zero_add, sz_add] <;> rfl

theorem profileMethodsOut_act (hs : Build s) {ms : List Method} (hm : ∀ m ∈ ms, m ∈ methods) {image : List Fl} {d w h : ℕ}
    (h1 : image.length ≤ s.cfg.sizeMax) (h2 : d * (w * h) ≤ image.length) (hF : LinesTooBig s.cfg w h → F)
    (kw kh : List ℕ) (k : ℕ) : Act False F L S (profileMethodsOut s v clock image d w h kw kh ms k) (fun r L' S' => (∃ X, L'.Perm (X ++ L)) ∧ S' = S ∧
      MethodsTold s F v clock (kw, kh) w h (framesOf image w h d) k ms r.1 r.2.1.out r.2.1.err r.2.2 ∧ (none ∉ r.1 → L'.Perm L)) := by
  induction ms generalizing L k with
  | nil => exact Act.pure ⟨⟨[], List.Perm.refl _⟩, rfl, .nil _, fun _ => List.Perm.refl _⟩
  | cons m ms ih =>
    unfold profileMethodsOut
    refine Act.bind (profileMethodOut_act hs (hm m List.mem_cons_self) h1 h2 hF kw kh k) ?_
    rintro r L1 S1 ⟨⟨X1, hX1⟩, rfl, ⟨e, msg, g1, g2, rfl⟩ | ⟨hp1, plus, minus, g1, rfl⟩⟩
    · refine Act.bind (ih (fun m h => hm m (List.mem_cons_of_mem _ h)) (k + 1)) ?_
      rintro ⟨l, o, k'⟩ L2 S2 ⟨⟨X2, hX2⟩, rfl, hl, hp⟩
      refine Act.pure ⟨⟨X2 ++ X1, ?_⟩, rfl, ?_, ?_⟩
      · rw [List.append_assoc]
        exact hX2.trans (List.Perm.append_left _ hX1)
      · exact .failed _ _ _ _ _ _ _ _ _ g1 g2 hl
      · intro hn
        simp at hn
    · refine Act.bind (ih (fun m h => hm m (List.mem_cons_of_mem _ h)) (k + 2)) ?_
      rintro ⟨l, o, k'⟩ L2 S2 ⟨⟨X2, hX2⟩, rfl, hl, hp⟩
      refine Act.pure ⟨⟨X2 ++ X1, ?_⟩, rfl, ?_, ?_⟩
      · rw [List.append_assoc]
        exact hX2.trans (List.Perm.append_left _ hX1)
      · exact .counted _ _ _ _ _ _ _ _ _ _ _ g1 (diffts_micros _ _) (fun hc => diffts_normal (hc.1 _) (hc.1 _) (hc.2 _)) (fun hn => profileRow_row hn _ _ _) hl
      · intro hn
        exact (hp (fun h => hn (List.mem_cons_of_mem _ h))).trans hp1

/-- What happens with one image. -/
theorem profileImageOut_act (hs : Build s) {image : Buf Fl} {d w h : ℕ} (h1 : image.data.length ≤ s.cfg.sizeMax) (h2 : d * (w * h) ≤ image.data.length)
    (hF : LinesTooBig s.cfg w h → F) {n1 n2 : List ℕ} {t1 t2 : List UInt8} (k1 : SizeLine n1 t1)
    (k2 : SizeLine n2 t2) (k3 : ∀ n ∈ n1 ++ n2, n ≤ s.cfg.sizeMax ∧ n < 2 ^ 64) (ls : List (List UInt8)) (k : ℕ) :
    Act False F (image.id :: L) S (profileImageOut s v clock image d w h ((t1 ++ [ch '\n']) :: (t2 ++ [ch '\n']) :: ls) k) (fun r L' S' => S' = S ∧
      (∃ X, L'.Perm (X ++ L)) ∧ (r.1.1 = none ∧ r.2.1 = ⟨[], []⟩ ∧ F ∨ ∃ figs, r.1 = (some figs, ls) ∧
        MethodsTold s F v clock (n1, n2) w h (framesOf image.data w h d) k methods figs r.2.1.out r.2.1.err r.2.2 ∧ (none ∉ figs → L'.Perm L))) := by
  unfold profileImageOut
  simp only
  refine Act.bind (sizes_act k1 (fun n hn => k3 n (List.mem_append_left _ hn))) ?_
  rintro r L1 S1 ⟨rfl, ⟨rfl, hp, hf⟩ | ⟨b1, rfl, rfl⟩⟩
  · simp only
    refine Act.bind (Act.free hp) ?_
    rintro _ _ _ ⟨rfl, rfl⟩
    exact Act.pure ⟨rfl, ⟨[], List.Perm.refl _⟩, Or.inl ⟨rfl, rfl, hf⟩⟩
  simp only
  refine Act.bind (sizes_act k2 (fun n hn => k3 n (List.mem_append_right _ hn))) ?_
  rintro r L1 S1 ⟨rfl, ⟨rfl, hp, hf⟩ | ⟨b2, rfl, rfl⟩⟩
  · simp only
    refine Act.bind (freeBuf_act (b := some ⟨b1, n1⟩) hp) ?_
    rintro _ L2 _ ⟨h3, rfl⟩
    refine Act.bind (Act.free h3) ?_
    rintro _ _ _ ⟨rfl, rfl⟩
    exact Act.pure ⟨rfl, ⟨[], List.Perm.refl _⟩, Or.inl ⟨rfl, rfl, hf⟩⟩
  simp only
  refine Act.bind (profileMethodsOut_act hs (fun _ h => h) h1 h2 hF n1 n2 k) ?_
  rintro ⟨l, o, k'⟩ L1 S1 ⟨⟨X, hX⟩, rfl, hl, hn⟩
  have free3 : ∀ X, L1.Perm (X ++ b2 :: b1 :: image.id :: L) → Act False F L1 S1 (do
      freeBuf (some (⟨b1, n1⟩ : Buf ℕ))
      freeBuf (some (⟨b2, n2⟩ : Buf ℕ))
      free (some image.id)
      return ((some l, ls), o, k')) (fun r L' S' => r = ((some l, ls), o, k') ∧ S' = S1 ∧ L' = X ++ L) := by
    intro X hX
    refine Act.bind (freeBuf_act (b := some ⟨b1, n1⟩) (L := b2 :: image.id :: (X ++ L)) (hX.trans ?_)) ?_
    · simp only [Option.map_some, Option.toList_some, List.cons_append, List.nil_append]
      perm_count
    rintro _ L2 _ ⟨h3, rfl⟩
    refine Act.bind (freeBuf_act (b := some ⟨b2, n2⟩) h3) ?_
    rintro _ L3 _ ⟨h4, rfl⟩
    refine Act.bind (Act.free h4) ?_
    rintro _ _ _ ⟨rfl, rfl⟩
    exact Act.pure ⟨rfl, rfl, rfl⟩
  by_cases hnn : none ∈ l
  · refine Act.mono (free3 X hX) ?_
    rintro r L' S' ⟨rfl, rfl, rfl⟩
    exact ⟨rfl, ⟨X, List.Perm.refl _⟩, Or.inr ⟨l, rfl, hl, fun h => absurd hnn h⟩⟩
  · refine Act.mono (free3 [] (hn hnn)) ?_
    rintro r L' S' ⟨rfl, rfl, rfl⟩
    exact ⟨rfl, ⟨[], List.Perm.refl _⟩, Or.inr ⟨l, rfl, hl, fun _ => List.Perm.refl _⟩⟩

/-- Nothing after the dictionary. -/
theorem tailOut_nil {F : Prop} {L : List ℕ} {fuel k : ℕ} (h : ([] : List (List UInt8)).length < fuel) :
    Act False F L S (profileLoopOut s io v clock fuel [] k) (fun r L' S' => S' = S ∧ (∃ X, L'.Perm (X ++ L)) ∧ r.1.1 = [] ∧
      (r.1.2 = false ∧ r.2 = ⟨[], []⟩) ∧ (r.1.2 = false → L'.Perm L)) := by
  obtain ⟨fuel, rfl⟩ : ∃ k, fuel = k + 1 := ⟨fuel - 1, by simp at h; omega⟩
  exact Act.pure ⟨rfl, ⟨[], List.Perm.refl _⟩, rfl, ⟨rfl, rfl⟩, fun _ => List.Perm.refl _⟩

/-- An entry that breaks off. -/
theorem tailOut_torn (hio : io.Plain) (hwd : ∃ w : World, w.WF) {name : List UInt8} {c : Content} {tail : List (List UInt8)} (ht : Torn s name c tail)
    (h0 : name ≠ []) (h1 : ∀ b ∈ name, b ≠ 0 ∧ b ≠ ch '\n') (hc : Contains s io name c) (hcode : Printable s.cfg c.error) {L : List ℕ} {fuel k : ℕ}
    (hf : tail.length < fuel) :
    Act False F L S (profileLoopOut s io v clock fuel tail k) (fun r L' S' => S' = S ∧ (∃ X, L'.Perm (X ++ L)) ∧ r.1.1 = [] ∧
      ((r.1.2 = true ∨ F) ∧ TornTold s F v name c r.2.out r.2.err) ∧ (r.1.2 = false → L'.Perm L)) := by
  obtain ⟨fuel, rfl⟩ : ∃ k, fuel = k + 1 := ⟨fuel - 1, by omega⟩
  obtain ⟨rest, rfl, hrest⟩ : ∃ rest, tail = (name ++ [ch '\n']) :: rest ∧ (rest = [] ∨ (∃ l, rest = [l]) ∨ ∃ t1 t2 b1 b2, rest = [t1 ++ [b1], t2 ++ [b2]] ∧
      c.whole s ≠ none ∧ ((∀ b ∈ t1, isdigit b = false) ∨ (∀ b ∈ t2, isdigit b = false))) := by
    cases ht with
    | name => exact ⟨[], rfl, Or.inl rfl⟩
    | first l => exact ⟨[l], rfl, Or.inr (Or.inl ⟨l, rfl⟩)⟩
    | bad t1 t2 b1 b2 hw hb => exact ⟨_, rfl, Or.inr (Or.inr ⟨t1, t2, b1, b2, rfl, hw, hb⟩)⟩
  clear ht
  unfold profileLoopOut
  rw [if_neg, chop_line (fun b hb => (h1 b hb).1)]
  swap
  · cases hh : name with
    | nil => exact absurd hh h0
    | cons b t =>
      have := (h1 b (by rw [hh]; exact List.mem_cons_self)).2
      simpa using this
  refine Act.bind (content_act hio hwd hc) ?_
  rintro o L1 S1 ⟨rfl, ⟨g0, frames, b, g1, g2, g3, rfl, _⟩ | ⟨rfl, g⟩⟩
  · rw [if_neg (by simp [g0])]
    refine Act.bind (Act.need (Q := fun a l s' => a = b ∧ l = b.id :: L ∧ s' = S1) g3 ⟨rfl, rfl, rfl⟩) ?_
    rintro b1 _ S2 ⟨i1, rfl, rfl⟩
    subst b1
    have img : Act False F (b.id :: L) S2 (profileImageOut s v clock b o.nimages o.width o.height rest k) (fun r L' S' => S' = S2 ∧ L'.Perm L ∧ r.1.1 = none ∧
        r.2.1 = ⟨[], []⟩) := by
      unfold profileImageOut
      have done0 : ∀ (ls : List (List UInt8)) {L1 S1}, L1.Perm (b.id :: L) → Act False F L1 S1 (do
          free (some b.id)
          return (((none : Option (List Timed)), ls), (⟨[], []⟩ : Output), k)) (fun r L' S' => S' = S1 ∧ L'.Perm L ∧ r.1.1 = none ∧ r.2.1 = ⟨[], []⟩) := by
        intro ls L1 S1 hp
        refine Act.bind (Act.free hp) ?_
        rintro _ _ _ ⟨rfl, rfl⟩
        exact Act.pure ⟨rfl, List.Perm.refl _, rfl, rfl⟩
      have done1 : ∀ (kb : Buf ℕ) (ls : List (List UInt8)) {L1 S1}, L1.Perm (kb.id :: b.id :: L) → Act False F L1 S1 (do
          freeBuf (some kb)
          free (some b.id)
          return (((none : Option (List Timed)), ls), (⟨[], []⟩ : Output), k)) (fun r L' S' => S' = S1 ∧ L'.Perm L ∧ r.1.1 = none ∧ r.2.1 = ⟨[], []⟩) := by
        intro kb ls L1 S1 hp
        refine Act.bind (freeBuf_act (b := some kb) hp) ?_
        rintro _ L2 _ ⟨h3, rfl⟩
        exact done0 ls h3
      have chopped : ∀ {t : List UInt8} {x : UInt8}, (∀ b ∈ t, isdigit b = false) → (strsep (chop (t ++ [x]))).mapM (strtou ullMax) = none := by
        intro t x h
        refine strsep_head (fun y hy => h y ?_)
        unfold chop at hy
        rw [List.dropLast_concat] at hy
        exact (List.takeWhile_sublist _).subset hy
      rcases hrest with rfl | ⟨l, rfl⟩ | ⟨t1, t2, b1, b2, rfl, hw, hbad⟩
      · exact done0 _ (List.Perm.refl _)
      · simp only
        refine Act.bind (readres_act _) ?_
        rintro r L1 S1 ⟨rfl, ⟨rfl, hp, _⟩ | ⟨k, ks, _, rfl, rfl⟩⟩
        · exact done0 _ hp
        · exact done1 _ _ (List.Perm.refl _)
      · simp only
        refine Act.bind (readres_act _) ?_
        rintro r L1 S1 ⟨rfl, ⟨rfl, hp, _⟩ | ⟨k, ks, k1, rfl, rfl⟩⟩
        · exact done0 _ hp
        · have hbad := hbad.resolve_left (fun h => by rw [chopped h] at k1; cases k1)
          simp only
          refine Act.bind (readres_act _) ?_
          rintro r L1 S1 ⟨rfl, ⟨rfl, hp, _⟩ | ⟨k', ks', k2, rfl, rfl⟩⟩
          · exact done1 _ _ hp
          · rw [chopped hbad] at k2; cases k2
    refine Act.bind img ?_
    rintro ⟨⟨r, ls⟩, o', k'⟩ L' S' ⟨rfl, hp, hr, ho⟩
    have hr : r = none := hr
    subst hr
    have ho : o' = ⟨[], []⟩ := ho
    subst ho
    exact Act.pure ⟨rfl, ⟨[], hp⟩, rfl, ⟨Or.inl rfl, by
      show TornTold s F v name c (name ++ [ch '\n'] ++ []) []
      rw [List.append_nil]
      exact .read (by rw [g1]; simp)⟩, fun _ => hp⟩
  · rw [if_pos (show o.error ≠ 0 from g.1)]
    have hpr : Printable s.cfg o.error := Unread.printable g hcode
    obtain ⟨t, ht⟩ := printable_str hpr v.strerror
    refine Act.bind (Act.need (Q := fun a l s' => a = some t ∧ l = L1 ∧ s' = S1) ht ⟨rfl, rfl, rfl⟩) ?_
    rintro _ _ _ ⟨rfl, rfl, rfl⟩
    refine Act.bind (Act.need (Q := fun a l s' => a = t ∧ l = _ ∧ s' = _) rfl ⟨rfl, rfl, rfl⟩) ?_
    rintro _ _ _ ⟨rfl, rfl, rfl⟩
    have told := TornTold.unread (name := name) g ht
    rcases hrest with rfl | ⟨l, rfl⟩ | ⟨t1, t2, b1, b2, rfl, hw, _⟩
    · exact Act.pure ⟨rfl, ⟨[], List.Perm.refl _⟩, rfl, ⟨Or.inl rfl, told⟩, by simp⟩
    · exact Act.pure ⟨rfl, ⟨[], List.Perm.refl _⟩, rfl, ⟨Or.inl rfl, told⟩, by simp⟩
    · have hF : F := (Unread.why g).resolve_left hw
      simp only
      refine Act.bind (tailOut_nil (by simp at hf ⊢; omega)) ?_
      rintro ⟨⟨l, b⟩, o'⟩ L' S' ⟨h1, h2, h3, ⟨_, h4⟩, h5⟩
      have h4 : o' = ⟨[], []⟩ := h4
      subst h4
      refine Act.pure ⟨h1, h2, h3, ⟨Or.inr hF, ?_⟩, h5⟩
      rw [show cs "\n" = [ch '\n'] from rfl] at told
      simpa [Output.then] using told

/-- The loop over the dictionary and whatever is behind it. -/
theorem profileLoopOut_act (hio : io.Plain) (hs : Build s) (hwd : ∃ w : World, w.WF) {es : List (DictEntry × Content)} {ls tail : List (List UInt8)}
    (hd : Dict (es.map Prod.fst) ls) (hc : ∀ x ∈ es, Contains s io x.1.name x.2)
    (hn : ∀ x ∈ es, ∀ n ∈ x.1.widths ++ x.1.heights, n ≤ s.cfg.sizeMax ∧ n < 2 ^ 64) (hcode : ∀ x ∈ es, Printable s.cfg x.2.error)
    (hF : ∀ x ∈ es, ∀ W H frames, x.2.whole s = some (W, H, frames) → LinesTooBig s.cfg W H → F) {T : Bool → Output → Prop}
    (htail : ∀ {L : List ℕ} {fuel k : ℕ}, tail.length < fuel → Act False F L S (profileLoopOut s io v clock fuel tail k) (fun r L' S' => S' = S ∧
      (∃ X, L'.Perm (X ++ L)) ∧ r.1.1 = [] ∧ T r.1.2 r.2 ∧ (r.1.2 = false → L'.Perm L)))
    {fuel : ℕ} (hfuel : (ls ++ tail).length < fuel) (k : ℕ) :
    Act False F L S (profileLoopOut s io v clock fuel (ls ++ tail) k) (fun r L' S' => S' = S ∧ (∃ X, L'.Perm (X ++ L)) ∧
      (∃ b out err last, EntriesTold s F v clock k es r.1.1 b out err ∧ r.2 = ⟨out ++ last.out, err ++ last.err⟩ ∧ (b = true → r.1.2 = true ∧ last = ⟨[], []⟩) ∧
        (b = false → T r.1.2 last)) ∧ (r.1.2 = false → L'.Perm L)) := by
  generalize hes : es.map Prod.fst = names at hd
  induction hd generalizing es fuel L k with
  | nil =>
    have : es = [] := by cases es with
      | nil => rfl
      | cons _ _ => cases hes
    subst this
    refine Act.mono (htail hfuel) ?_
    rintro ⟨⟨l, b⟩, o⟩ L' S' ⟨h1, h2, h3, h4, h5⟩
    have h3 : l = [] := h3
    subst h3
    exact ⟨h1, h2, ⟨false, [], [], o, .nil _, rfl, by simp, fun _ => h4⟩, h5⟩
  | blank es' ls hd ih =>
    obtain ⟨fuel, rfl⟩ : ∃ k, fuel = k + 1 := ⟨fuel - 1, by simp at hfuel; omega⟩
    rw [List.cons_append]
    unfold profileLoopOut
    rw [if_pos (show [ch '\n'].head? = some (ch '\n') from rfl)]
    exact ih hc hn hcode hF (by simpa using hfuel) k hes
  | entry e t1 t2 es' ls h1 h2 h3 h4 hd ih =>
    obtain ⟨fuel, rfl⟩ : ∃ k, fuel = k + 1 := ⟨fuel - 1, by simp at hfuel; omega⟩
    cases es with
    | nil => cases hes
    | cons x es =>
      obtain ⟨e', c⟩ := x
      rw [List.map_cons, List.cons.injEq] at hes
      obtain ⟨rfl, hes⟩ := hes
      have ih' : ∀ {L fuel} (k : ℕ), (ls ++ tail).length < fuel → _ := fun {L fuel} k hf => ih (L := L) (fuel := fuel) (fun x hx => hc x (List.mem_cons_of_mem _ hx))
        (fun x hx => hn x (List.mem_cons_of_mem _ hx)) (fun x hx => hcode x (List.mem_cons_of_mem _ hx)) (fun x hx => hF x (List.mem_cons_of_mem _ hx))
        hf k hes
      have hf' : (ls ++ tail).length < fuel := by simp at hfuel ⊢; omega
      rw [List.cons_append, List.cons_append, List.cons_append]
      unfold profileLoopOut
      rw [if_neg, chop_line (fun b hb => (h2 b hb).1)]
      swap
      · cases hh : e'.name with
        | nil => exact absurd hh h1
        | cons b t =>
          have := (h2 b (by rw [hh]; exact List.mem_cons_self)).2
          simpa using this
      refine Act.bind (content_act hio hwd (hc _ List.mem_cons_self)) ?_
      rintro o L1 S1 ⟨rfl, ⟨g0, frames, b, g1, g2, g3, rfl, g4, g5, g6⟩ | ⟨rfl, g⟩⟩
      · rw [if_neg (by simp [g0])]
        refine Act.bind (Act.need (Q := fun a l s' => a = b ∧ l = b.id :: L ∧ s' = S1) g3 ⟨rfl, rfl, rfl⟩) ?_
        rintro b1 _ _ ⟨i1, rfl, rfl⟩
        subst b1
        rw [g2]
        refine Act.bind (profileImageOut_act hs g4 g5 (hF _ List.mem_cons_self _ _ _ g1) h3 h4 (hn _ List.mem_cons_self) (ls ++ tail) k) ?_
        rintro ⟨⟨r, ls'⟩, o', k'⟩ L2 S2 ⟨rfl, ⟨X, hX⟩, ⟨q1, q2, q4⟩ | ⟨figs, q1, q2, q3⟩⟩
        · have q1 : r = none := q1
          subst q1
          have q2 : o' = ⟨[], []⟩ := q2
          subst q2
          refine Act.pure ⟨rfl, ⟨X, hX⟩, ⟨true, _, _, ⟨[], []⟩, EntriesTold.lost (s := s) (v := v) (clock := clock) k e' c es q4, ?_, by simp, by simp⟩, by simp⟩
          simp [Output.then, show cs "\n" = [ch '\n'] from rfl]
        · cases q1
          rw [g6] at q2
          simp only
          by_cases hnn : none ∈ figs
          · rw [if_pos (by simpa using hnn)]
            refine Act.pure ⟨rfl, ⟨X, hX⟩, ⟨true, _, _, ⟨[], []⟩, .failed _ _ _ _ _ _ _ _ _ _ _ g1 q2 hnn, ?_, by simp, by simp⟩, by simp⟩
            simp [Output.then, show cs "\n" = [ch '\n'] from rfl]
          · rw [if_neg (by simpa using hnn)]
            refine Act.bind (ih' k' hf') ?_
            rintro ⟨⟨l, b⟩, o3⟩ L3 S3 ⟨rfl, ⟨X3, hX3⟩, ⟨b', out, err, last, p1, p3, p4, p5⟩, p2⟩
            have := q3 hnn
            have p3 : o3 = ⟨out ++ last.out, err ++ last.err⟩ := p3
            subst p3
            refine Act.pure ⟨rfl, ⟨X3, hX3.trans (List.Perm.append_left _ this)⟩, ⟨b', _, _, last, EntriesTold.counted _ _ e' _ _ _ _ _ _ _ _ _ _ _ _ g1 q2 hnn p1, ?_, p4, p5⟩,
              fun h => (p2 h).trans this⟩
            simp only [Output.then, List.append_assoc, List.nil_append, show cs "\n" = [ch '\n'] from rfl]
      · rw [if_pos (show o.error ≠ 0 from g.1)]
        have hpr : Printable s.cfg o.error := Unread.printable g (hcode _ List.mem_cons_self)
        obtain ⟨t, ht⟩ := printable_str hpr v.strerror
        refine Act.bind (Act.need (Q := fun a l s' => a = some t ∧ l = L1 ∧ s' = S1) ht ⟨rfl, rfl, rfl⟩) ?_
        rintro _ _ _ ⟨rfl, rfl, rfl⟩
        refine Act.bind (Act.need (Q := fun a l s' => a = t ∧ l = _ ∧ s' = _) rfl ⟨rfl, rfl, rfl⟩) ?_
        rintro _ _ _ ⟨rfl, rfl, rfl⟩
        simp only
        refine Act.bind (ih' k hf') ?_
        rintro ⟨⟨l, b⟩, o3⟩ L3 S3 ⟨rfl, hX, ⟨b', out, err, last, p1, p3, p4, p5⟩, p2⟩
        have p3 : o3 = ⟨out ++ last.out, err ++ last.err⟩ := p3
        subst p3
        refine Act.pure ⟨rfl, hX, ⟨b', _, _, last, .skipped _ _ _ _ _ _ _ _ _ _ g ht p1, ?_, p4, p5⟩, p2⟩
        simp only [Output.then, List.append_assoc, show cs "\n" = [ch '\n'] from rfl]

/-- The times in what was told. -/
theorem methodsTold_normal {known : List ℕ × List ℕ} {W H : ℕ} {frames : List (List Fl)} {k k' : ℕ} {ms : List Method} {l : List Timed} {out err : List UInt8}
    (hc : Clock clock) (h : MethodsTold s F v clock known W H frames k ms l out err k') : ∀ x ∈ l, ∀ y, x = some y → NormalTime y.1 := by
  induction h with
  | nil => simp
  | counted k k' m ms l t plus minus row out err _ _ hn _ _ ih =>
    rintro x hx y rfl
    rcases List.mem_cons.mp hx with hx | hx
    · cases hx; exact hn hc
    · exact ih _ hx _ rfl
  | failed k k' m ms l e msg out err _ _ _ ih =>
    rintro x hx y rfl
    rcases List.mem_cons.mp hx with hx | hx
    · cases hx
    · exact ih _ hx _ rfl

theorem entriesTold_normal {k : ℕ} {es : List (DictEntry × Content)} {l : List (List Timed)} {b : Bool} {out err : List UInt8}
    (hc : Clock clock) (h : EntriesTold s F v clock k es l b out err) : ∀ figs ∈ l, ∀ x ∈ figs, ∀ y, x = some y → NormalTime y.1 := by
  induction h with
  | nil => simp
  | skipped _ _ _ _ _ _ _ _ _ _ _ _ _ ih => exact ih
  | lost => simp
  | counted _ _ _ _ _ _ _ _ _ _ _ _ _ _ _ _ hm _ _ ih =>
    intro figs hf
    rcases List.mem_cons.mp hf with rfl | hf
    · exact methodsTold_normal hc hm
    · exact ih _ hf
  | failed _ _ _ _ _ _ _ _ _ _ _ _ hm _ =>
    intro figs hf
    rw [List.mem_singleton.mp hf]
    exact methodsTold_normal hc hm

/-- The rows below `totals`. -/
theorem totalRows_told {F : Prop} {images : List (List Timed)} {b : Bool} {out err : List UInt8} (hcl : Clock clock) (k2 : EntriesTold s F v clock 0 es images b out err) :
    ∃ rows : List (List UInt8), totalRows (profilePadding methods) methods (images.foldl addTimes (List.replicate methods.length (⟨0, 0⟩ : Timeval)))
      ((images.map (List.map Timed.figures)).foldl (addTotals s.cfg) (List.replicate methods.length (0, 0))) = rows.flatten ∧ rows.length = methods.length ∧
      ∀ k m, methods[k]? = some m → ∃ t row, (images.foldl addTimes (List.replicate methods.length (⟨0, 0⟩ : Timeval)))[k]? = some t ∧ NormalTime t ∧
        micros t = timeSum images k ∧ rows[k]? = some row ∧
        FigureRow m t (figureSum (images.map (List.map Timed.figures)) k Prod.fst % (s.cfg.sizeMax + 1))
          (figureSum (images.map (List.map Timed.figures)) k Prod.snd % (s.cfg.sizeMax + 1)) row := by
  have normal := entriesTold_normal hcl k2
  have zero : ∀ (k : ℕ) (m : Method), methods[k]? = some m → (List.replicate methods.length (⟨0, 0⟩ : Timeval))[k]? = some (⟨0, 0⟩ : Timeval) := by
    intro k m hk
    rw [List.getElem?_replicate, if_pos]
    exact (List.getElem?_eq_some_iff.mp hk).1
  have n0 : NormalTime ⟨0, 0⟩ := by unfold NormalTime; decide
  have ht : ∀ t ∈ images.foldl addTimes (List.replicate methods.length (⟨0, 0⟩ : Timeval)), NormalTime t := by
    intro t ht
    obtain ⟨k, hk⟩ := List.mem_iff_getElem?.mp ht
    have hlt := (List.getElem?_eq_some_iff.mp hk).1
    rw [times_length, List.length_replicate] at hlt
    obtain ⟨t', h1, h2, _⟩ := times_eq images _ k _ (zero k _ (List.getElem?_eq_getElem hlt)) n0 normal
    rw [hk] at h1
    cases h1
    exact h2
  obtain ⟨rows, r1, r2, r3⟩ := totalRows_rows methods (images.foldl addTimes (List.replicate methods.length (⟨0, 0⟩ : Timeval)))
    ((images.map (List.map Timed.figures)).foldl (addTotals s.cfg) (List.replicate methods.length (0, 0)))
    (by rw [times_length, List.length_replicate]) (by rw [totals_length, List.length_replicate]) ht
  refine ⟨rows, r1, r2, ?_⟩
  · intro k m hk
    obtain ⟨t, f, row, q1, q2, q3, q4⟩ := r3 k m hk
    obtain ⟨t', h1, h2, h3⟩ := times_eq images _ k _ (zero k m hk) n0 normal
    rw [q1] at h1
    cases h1
    rw [totals_eq _ _ _ (by intro t ht; rw [List.eq_of_mem_replicate ht]; exact ⟨Nat.zero_le _, Nat.zero_le _⟩), List.getElem?_replicate,
      if_pos (List.getElem?_eq_some_iff.mp hk).1] at q2
    simp only [Option.map_some, Nat.zero_add, Option.some.injEq] at q2
    subst q2
    exact ⟨t, row, q1, h2, by rw [h3]; simp [micros], q3, q4⟩

end Verif
