import Verif.Proofs.ProfileLemmas

/-! The program profile. -/

namespace Verif

open Spec Props

variable {s : Sys} {io : Io} {v : CliEnv} {U F : Prop} {L S : List ℕ} {W H : ℕ}

theorem Ctx.step_length {w h : ℕ} {x x' : Ctx} {f : List Fl} {e : RDError} (hs : x.step s w h = some (some f, e, x')) : f.length = w * h := by
  unfold Ctx.step at hs
  cases x with
  | pgm x =>
    simp only at hs
    split_ifs at hs with h1 h2
    · simp at hs
    · simp only [Option.some.injEq, Prod.mk.injEq] at hs
      rw [← hs.1, List.length_map, List.length_take]
      omega
    · simp at hs
  | pfm x =>
    simp only at hs
    split at hs
    · cases hs
    · split_ifs at hs with h1 h2
      · simp only [Option.some.injEq, Prod.mk.injEq] at hs
        rw [← hs.1, pfmFrame_length, Nat.mul_comm]
      · simp at hs
      · simp at hs
  | y4m x =>
    simp only [Option.some.injEq, Prod.mk.injEq] at hs
    split_ifs at hs with h1
    · simp only [Option.some.injEq] at hs
      rw [← hs.1, y4mPlane_length]
    · simp at hs
  | _ => cases hs

theorem Ctx.frames_length {w h : ℕ} (x : Ctx) : ∀ f ∈ (x.frames s w h).1, f.length = w * h := by
  have key : ∀ n (x : Ctx), ∀ f ∈ (x.play s w h n).1, f.length = w * h := by
    intro n
    induction n with
    | zero => intro x f hf; simp [Ctx.play] at hf
    | succ n ih =>
      intro x f hf
      unfold Ctx.play at hf
      split at hf
      · simp at hf
      · simp at hf
      · rename_i hs
        rcases List.mem_cons.mp hf with rfl | hf
        · exact Ctx.step_length hs
        · exact ih _ f hf
  exact key _ x

theorem framesOf_flatten {P : ℕ} {frames : List (List Fl)} (hl : ∀ f ∈ frames, f.length = W * H) (hP : P = W * H) {data : List Fl}
    (hd : data.take (P * frames.length) = frames.flatten) : framesOf data W H frames.length = frames := by
  subst hP
  induction frames generalizing data with
  | nil => rfl
  | cons f fs ih =>
    have hf : f.length = W * H := hl f List.mem_cons_self
    have e1 : data.take (W * H) = f := by
      have := congrArg (List.take (W * H)) hd
      rw [List.take_take, List.flatten_cons, List.length_cons, Nat.min_eq_left (by rw [Nat.mul_add]; omega), ← hf, List.take_left] at this
      rw [← hf]; exact this
    have e2 : (data.drop (W * H)).take (W * H * fs.length) = fs.flatten := by
      have := congrArg (List.drop (W * H)) hd
      rw [List.drop_take, List.flatten_cons, List.length_cons] at this
      rw [show W * H * (fs.length + 1) - W * H = W * H * fs.length by rw [Nat.mul_add, Nat.mul_one, Nat.add_sub_cancel]] at this
      rw [this, ← hf, List.drop_left]
    have ih := ih (fun g hg => hl g (List.mem_cons_of_mem _ hg)) e2
    unfold framesOf at ih ⊢
    rw [List.length_cons, List.range_succ_eq_map, List.map_cons, List.map_map]
    congr 1
    · simp [frameOf, e1]
    · refine Eq.trans ?_ ih
      refine List.map_congr_left fun i _ => ?_
      simp only [Function.comp_apply, frameOf, List.drop_drop]
      congr 2
      rw [Nat.succ_eq_add_one]
      ring

/-- Reading a file that is rejected. -/
theorem readImage_rejected (hio : io.Plain) (hwd : ∃ w : World, w.WF) {name : List UInt8} {e : RDError} (he : e ≠ RDEOK)
    (hr : Rejects (resdetOpenImage s io (some name) none true true true) e) :
    Act False F L S (readImage s io (some name) none true true) (fun o L' S' => S' = S ∧ o.error ≠ 0 ∧ L' = L ∧
      (o.error = e ∨ o.error = RDENOMEM ∧ F)) := by
  obtain ⟨w, hw⟩ := hwd
  obtain ⟨w1, h1, _⟩ := hr _ hw.plenty (fun _ => rfl)
  unfold resdetOpenImage at h1
  rw [if_neg (by simp)] at h1
  simp only at h1
  unfold readImage
  cases hf : findReader (imageReaders s io) (extension name none) with
  | none => rw [hf] at h1; cases h1
  | some o =>
    rw [hf] at h1
    have h1 : openImage s o name true { w with sched := fun _ => true } = _ := h1
    have e1 : resdetOpenImage s io (some name) none true true true = openImage s o name true := by
      unfold resdetOpenImage
      rw [if_neg (by simp)]
      simp only [hf]
      funext w
      exact M.bind_some rfl
    rw [e1]
    have key : Act False F L S (openImage s o name true) (fun op L' S' => op = Failed op.error ∧ op.error ≠ 0 ∧ L' = L ∧ S' = S ∧
        (op.error = e ∨ op.error = RDENOMEM ∧ F)) := by
      cases o with
      | none =>
        rcases openUnsupported_act (U := False) (F := False) (s := s) (name := name) (wantBuf := true) _ _
          (Own.init hw.plenty (by simp)) with ⟨_, h⟩ | ⟨o, w', _, _, h4, _, h5, _, _, h6⟩
        · exact h.elim
        · rw [h1] at h4
          cases h4
          rcases h6 with h6 | ⟨_, h6⟩
          · have h6 : e = RDEUNSUPP := h6
            refine Act.mono openUnsupported_act ?_
            rintro op L' S' ⟨g1, g2, g3, g4⟩
            refine ⟨g1, ?_, g2, g3, ?_⟩
            · rcases g4 with g4 | ⟨g4, _⟩ <;> rw [g4] <;> decide
            · rw [h6]; exact g4
          · exact h6.elim
      | some r =>
        obtain ⟨Ok, hb⟩ := hio.builtin r (findReader_mem hf)
        obtain ⟨a, hd⟩ := hb.determined name
        rcases hb.det_act hd (F := False) (wantBuf := true) _ _ (Own.init hw.plenty (by simp)) with ⟨h4, _⟩ | ⟨op, w', L', S', h4, ow, h5⟩
        · rw [h1] at h4; cases h4
        · rw [h1] at h4
          cases h4
          rcases h5 with ⟨i2, x, ho, _⟩ | ⟨_, _, _, _, ⟨_, h6⟩ | h6⟩
          · have := ho.image
            cases this
          · exact h6.elim
          · refine Act.mono ((hb.det_act hd).weaken (by rintro rfl; rcases h6 with ⟨_, _, h⟩ | ⟨_, _, _, _, h, _⟩ <;> cases h) Iff.rfl) ?_
            rintro op L' S' (⟨i, x, ho, g2, _⟩ | ⟨g1, g2, g3, g4, g5⟩)
            · rcases h6 with ⟨_, _, h⟩ | ⟨_, _, _, _, h, h7⟩
              · rw [g2] at h; cases h
              · rw [g2] at h
                simp only [Option.some.injEq, Prod.mk.injEq] at h
                obtain ⟨_, rfl, rfl, _⟩ := h
                exact absurd ho.within h7
            · refine ⟨g1, g2, g3, g4, ?_⟩
              rcases g5 with g5 | ⟨_, _, g5⟩ | ⟨g5, _, _, _, g6, _⟩
              · exact Or.inr g5
              · left
                rcases h6 with ⟨_, _, h⟩ | ⟨_, _, _, _, h, _⟩
                · rw [g5] at h
                  simp only [Option.some.injEq, Prod.mk.injEq] at h
                  exact h.2.2.2
                · rw [g5] at h
                  simp only [Option.some.injEq, Prod.mk.injEq] at h
                  exact absurd h.2.2.2 g2
              · left
                rcases h6 with ⟨_, _, h⟩ | ⟨h7, _, _, _, h, _⟩
                · rw [g6] at h
                  simp only [Option.some.injEq, Prod.mk.injEq] at h
                  exact absurd h.2.2.2.symm he
                · rw [g5]; exact h7.symm
    refine Act.bind key ?_
    rintro op L' S' ⟨g1, g2, rfl, rfl, g3⟩
    rw [if_pos g2]
    exact Act.pure ⟨rfl, g2, rfl, g3⟩

theorem Unread.why {F : Prop} {c : Content} {e : RDError} (h : Unread s F c e) : c.whole s = none ∨ F := by
  obtain ⟨h0, h | ⟨_, h⟩ | ⟨_, h⟩⟩ := h
  · left
    cases c with
    | frames W H fs e' =>
      have h : e = e' := h
      simp only [Content.whole]
      rw [if_neg]
      rintro ⟨h1, _⟩
      exact h0 (h.trans h1)
    | rejected e' => rfl
  · exact Or.inl h
  · exact Or.inr h

theorem Unread.printable {F : Prop} {c : Content} {e : RDError} (h : Unread s F c e) (hc : Printable s.cfg c.error) : Printable s.cfg e := by
  obtain ⟨_, h | ⟨h, _⟩ | ⟨h, _⟩⟩ := h
  · rw [h]; exact hc
  · rw [h]; exact ⟨by show -(s.cfg.intMax : ℤ) ≤ 5; omega, by decide⟩
  · rw [h]; exact ⟨by show -(s.cfg.intMax : ℤ) ≤ 1; omega, by decide⟩

/-- Reading the file of an entry. -/
theorem content_act (hio : io.Plain) (hwd : ∃ w : World, w.WF) {name : List UInt8} {c : Content} (hc : Contains s io name c) :
    Act False F L S (readImage s io (some name) none true true) (fun o L' S' => S' = S ∧
      ((o.error = 0 ∧ ∃ frames b, c.whole s = some (o.width, o.height, frames) ∧ o.nimages = frames.length ∧ o.images = some b ∧ L' = b.id :: L ∧
          b.data.length ≤ s.cfg.sizeMax ∧ frames.length * (o.width * o.height) ≤ b.data.length ∧
          framesOf b.data o.width o.height frames.length = frames) ∨
        (L' = L ∧ Unread s F c o.error))) := by
  cases c with
  | frames W H frames e =>
    obtain ⟨name', r, Ok, x, hx⟩ := source_of_yields (Or.inl hio) hwd hc
    refine Act.mono hx.readImage_act ?_
    rintro o L' S' ⟨rfl, ⟨h1, h2, h3, h4, h5, h6, b, h7, h8, h9, h10⟩ | ⟨h1, h2, h3, h4⟩⟩
    · refine ⟨rfl, Or.inl ⟨h1, frames, b, ?_, h5, h7, h8, ?_, ?_, ?_⟩⟩
      · simp only [Content.whole]
        rw [if_pos ⟨h2, h6⟩, h3, h4]
      · rw [h9]; have := h6.2; omega
      · rw [h9, h3, h4, Nat.mul_comm]; exact Nat.mul_le_mul_left _ (by omega)
      · rw [h3, h4]
        refine framesOf_flatten ?_ rfl h10
        have := Ctx.frames_length (s := s) (w := W) (h := H) x
        rw [hx.frames] at this
        exact this
    · refine ⟨rfl, Or.inr ⟨h3, h1, ?_⟩⟩
      rcases h4 with ⟨h4, _⟩ | ⟨h4, h5⟩ | ⟨h4, h5⟩
      · exact Or.inl h4
      · refine Or.inr (Or.inl ⟨h4, ?_⟩)
        simp only [Content.whole]
        rw [if_neg]
        rintro ⟨_, h⟩
        exact h5 h
      · exact Or.inr (Or.inr ⟨h4, h5⟩)
  | rejected e =>
    refine Act.mono (readImage_rejected hio hwd hc.1 hc.2) ?_
    rintro o L' S' ⟨rfl, h1, h2, h3⟩
    refine ⟨rfl, Or.inr ⟨h2, h1, ?_⟩⟩
    rcases h3 with h3 | ⟨h3, h4⟩
    · exact Or.inl h3
    · exact Or.inr (Or.inr ⟨h3, h4⟩)

/-- The figures of all methods. -/
theorem profileMethods_act (hs : Build s) {ms : List Method} (hm : ∀ m ∈ ms, m ∈ methods) {image : List Fl} {d w h : ℕ}
    (h1 : image.length ≤ s.cfg.sizeMax) (h2 : d * (w * h) ≤ image.length) (hF : LinesTooBig s.cfg w h → F)
    (kw kh : List ℕ) : Act False F L S (profileMethods s v image d w h kw kh ms) (fun l L' S' => (∃ X, L'.Perm (X ++ L)) ∧ S' = S ∧
      List.Forall₂ (Figure s F (kw, kh) w h (framesOf image w h d)) ms l ∧ (none ∉ l → L'.Perm L)) := by
  induction ms generalizing L with
  | nil => exact Act.pure ⟨⟨[], List.Perm.refl _⟩, rfl, .nil, fun _ => List.Perm.refl _⟩
  | cons m ms ih =>
    unfold profileMethods
    refine Act.bind (profileMethod_act hs (hm m List.mem_cons_self) h1 h2 hF kw kh) ?_
    rintro r L1 S1 ⟨⟨X1, hX1⟩, rfl, hr⟩
    refine Act.bind (ih (fun m h => hm m (List.mem_cons_of_mem _ h))) ?_
    rintro l L2 S2 ⟨⟨X2, hX2⟩, rfl, hl, hp⟩
    refine Act.pure ⟨⟨X2 ++ X1, ?_⟩, rfl, .cons ?_ hl, ?_⟩
    · rw [List.append_assoc]
      exact hX2.trans (List.Perm.append_left _ hX1)
    · rcases hr with ⟨rfl, hr⟩ | ⟨_, ev, a, l1, x1, l2, x2, g1, g2, rfl⟩
      · exact hr
      · exact ⟨ev, a, l1, x1, l2, x2, g1, g2, _, _, _, _, merge_counted _ _, merge_counted _ _, rfl, rfl⟩
    · intro hn
      rcases hr with ⟨rfl, _⟩ | ⟨hr, _⟩
      · simp at hn
      · exact (hp (fun h => hn (List.mem_cons_of_mem _ h))).trans hr

/-- A line of sizes. -/
theorem sizes_act {c : Cfg} {ns : List ℕ} {t : List UInt8} (h : SizeLine ns t) (hn : ∀ n ∈ ns, n ≤ c.sizeMax ∧ n < 2 ^ 64) :
    Act False F L S (readres c (chop (t ++ [ch '\n']))) (fun r L' S' => S' = S ∧
      (r = none ∧ L'.Perm L ∧ F ∨ ∃ b, r = some ⟨b, ns⟩ ∧ L' = b :: L)) := by
  rw [chop_line (sizeLine_nul h)]
  have hk := sizeLine_pieces h (max := ullMax) (fun n hn' => by have := (hn n hn').2; unfold ullMax; omega)
  refine Act.mono (readres_act t) ?_
  rintro r L' S' ⟨rfl, ⟨rfl, hp, h | h⟩ | ⟨b, ks, h, rfl, rfl⟩⟩
  · exact ⟨rfl, Or.inl ⟨rfl, hp, h⟩⟩
  · rw [hk] at h; cases h
  · rw [hk] at h
    cases h
    have : ns.map c.sz = ns := by
      conv_rhs => rw [← List.map_id ns]
      exact List.map_congr_left (fun n hn' => Nat.mod_eq_of_lt (by have := (hn n hn').1; omega))
    exact ⟨rfl, Or.inr ⟨b, by rw [this], rfl⟩⟩

/-- What happens with one image. -/
theorem profileImage_act (hs : Build s) {image : Buf Fl} {d w h : ℕ} (h1 : image.data.length ≤ s.cfg.sizeMax) (h2 : d * (w * h) ≤ image.data.length)
    (hF : LinesTooBig s.cfg w h → F) {n1 n2 : List ℕ} {t1 t2 : List UInt8} (k1 : SizeLine n1 t1)
    (k2 : SizeLine n2 t2) (k3 : ∀ n ∈ n1 ++ n2, n ≤ s.cfg.sizeMax ∧ n < 2 ^ 64) (ls : List (List UInt8)) :
    Act False F (image.id :: L) S (profileImage s v image d w h ((t1 ++ [ch '\n']) :: (t2 ++ [ch '\n']) :: ls)) (fun r L' S' => S' = S ∧
      (∃ X, L'.Perm (X ++ L)) ∧ (r.1 = none ∧ F ∨ ∃ figs, r = (some figs, ls) ∧
        List.Forall₂ (Figure s F (n1, n2) w h (framesOf image.data w h d)) methods figs ∧ (none ∉ figs → L'.Perm L))) := by
  unfold profileImage
  simp only
  refine Act.bind (sizes_act k1 (fun n hn => k3 n (List.mem_append_left _ hn))) ?_
  rintro r L1 S1 ⟨rfl, ⟨rfl, hp, hf⟩ | ⟨b1, rfl, rfl⟩⟩
  · simp only
    refine Act.bind (Act.free hp) ?_
    rintro _ _ _ ⟨rfl, rfl⟩
    exact Act.pure ⟨rfl, ⟨[], List.Perm.refl _⟩, Or.inl ⟨rfl, hf⟩⟩
  simp only
  refine Act.bind (sizes_act k2 (fun n hn => k3 n (List.mem_append_right _ hn))) ?_
  rintro r L1 S1 ⟨rfl, ⟨rfl, hp, hf⟩ | ⟨b2, rfl, rfl⟩⟩
  · simp only
    refine Act.bind (freeBuf_act (b := some ⟨b1, n1⟩) hp) ?_
    rintro _ L2 _ ⟨h3, rfl⟩
    refine Act.bind (Act.free h3) ?_
    rintro _ _ _ ⟨rfl, rfl⟩
    exact Act.pure ⟨rfl, ⟨[], List.Perm.refl _⟩, Or.inl ⟨rfl, hf⟩⟩
  simp only
  refine Act.bind (profileMethods_act hs (fun _ h => h) h1 h2 hF n1 n2) ?_
  rintro l L1 S1 ⟨⟨X, hX⟩, rfl, hl, hn⟩
  have free3 : ∀ X, L1.Perm (X ++ b2 :: b1 :: image.id :: L) → Act False F L1 S1 (do
      freeBuf (some (⟨b1, n1⟩ : Buf ℕ))
      freeBuf (some (⟨b2, n2⟩ : Buf ℕ))
      free (some image.id)
      return (some l, ls)) (fun r L' S' => r = (some l, ls) ∧ S' = S1 ∧ L' = X ++ L) := by
    intro X hX
    refine Act.bind (freeBuf_act (b := some ⟨b1, n1⟩) (L := b2 :: image.id :: (X ++ L)) (hX.trans ?_)) ?_
    · simp only [Option.map_some, Option.toList_some, List.cons_append, List.nil_append]
      perm_count
    rintro _ L2 _ ⟨h3, rfl⟩
    refine Act.bind (freeBuf_act (b := some ⟨b2, n2⟩) h3) ?_
    rintro _ L3 _ ⟨h4, rfl⟩
    refine Act.bind (Act.free h4) ?_
    rintro _ _ _ ⟨rfl, rfl⟩
    exact Act.pure ⟨rfl, rfl, rfl⟩
  by_cases hnn : none ∈ l
  · refine Act.mono (free3 X hX) ?_
    rintro r L' S' ⟨rfl, rfl, rfl⟩
    exact ⟨rfl, ⟨X, List.Perm.refl _⟩, Or.inr ⟨l, rfl, hl, fun h => absurd hnn h⟩⟩
  · refine Act.mono (free3 [] (hn hnn)) ?_
    rintro r L' S' ⟨rfl, rfl, rfl⟩
    exact ⟨rfl, ⟨[], List.Perm.refl _⟩, Or.inr ⟨l, rfl, hl, fun _ => List.Perm.refl _⟩⟩

/-- The loop over the dictionary. -/
theorem profileLoop_act (hio : io.Plain) (hs : Build s) (hwd : ∃ w : World, w.WF) {es : List (DictEntry × Content)} {ls : List (List UInt8)}
    (hd : Dict (es.map Prod.fst) ls) (hc : ∀ x ∈ es, Contains s io x.1.name x.2)
    (hn : ∀ x ∈ es, ∀ n ∈ x.1.widths ++ x.1.heights, n ≤ s.cfg.sizeMax ∧ n < 2 ^ 64) (hcode : ∀ x ∈ es, Printable s.cfg x.2.error)
    (hF : ∀ x ∈ es, ∀ W H frames, x.2.whole s = some (W, H, frames) → LinesTooBig s.cfg W H → F)
    {tail : List (List UInt8)} {T : Bool → Prop} (htail : ∀ {L : List ℕ} {fuel : ℕ}, tail.length < fuel →
      Act False F L S (profileLoop s io v fuel tail) (fun r L' S' => S' = S ∧ (∃ X, L'.Perm (X ++ L)) ∧ r.1 = [] ∧ T r.2 ∧ (r.2 = false → L'.Perm L)))
    {fuel : ℕ} (hfuel : (ls ++ tail).length < fuel) :
    Act False F L S (profileLoop s io v fuel (ls ++ tail)) (fun r L' S' => S' = S ∧ (∃ X, L'.Perm (X ++ L)) ∧
      (∃ b, Profiled s F es r.1 b ∧ (b = true → r.2 = true) ∧ (b = false → T r.2)) ∧ (r.2 = false → L'.Perm L)) := by
  generalize hes : es.map Prod.fst = names at hd
  induction hd generalizing es fuel L with
  | nil =>
    obtain ⟨fuel, rfl⟩ : ∃ k, fuel = k + 1 := ⟨fuel - 1, by simp at hfuel; omega⟩
    have : es = [] := by cases es with
      | nil => rfl
      | cons _ _ => cases hes
    subst this
    rw [List.nil_append]
    refine Act.mono (htail (by simpa using hfuel)) ?_
    rintro ⟨l, b⟩ L' S' ⟨rfl, hX, h1, h2, h3⟩
    have h1 : l = [] := h1
    subst h1
    exact ⟨rfl, hX, ⟨false, .nil, by simp, fun _ => h2⟩, h3⟩
  | blank es' ls hd ih =>
    obtain ⟨fuel, rfl⟩ : ∃ k, fuel = k + 1 := ⟨fuel - 1, by simp at hfuel; omega⟩
    rw [List.cons_append]
    unfold profileLoop
    rw [if_pos (show [ch '\n'].head? = some (ch '\n') from rfl)]
    exact ih hc hn hcode hF (by simpa using hfuel) hes
  | entry e t1 t2 es' ls h1 h2 h3 h4 hd ih =>
    obtain ⟨fuel, rfl⟩ : ∃ k, fuel = k + 1 := ⟨fuel - 1, by simp at hfuel; omega⟩
    cases es with
    | nil => cases hes
    | cons x es =>
      obtain ⟨e', c⟩ := x
      rw [List.map_cons, List.cons.injEq] at hes
      obtain ⟨rfl, hes⟩ := hes
      have ih' : ∀ {L fuel}, (ls ++ tail).length < fuel → _ := fun {L fuel} hf => ih (L := L) (fuel := fuel) (fun x hx => hc x (List.mem_cons_of_mem _ hx))
        (fun x hx => hn x (List.mem_cons_of_mem _ hx)) (fun x hx => hcode x (List.mem_cons_of_mem _ hx)) (fun x hx => hF x (List.mem_cons_of_mem _ hx))
        hf hes
      have hf' : (ls ++ tail).length < fuel := by simp at hfuel ⊢; omega
      rw [List.cons_append, List.cons_append, List.cons_append]
      unfold profileLoop
      rw [if_neg, chop_line (fun b hb => (h2 b hb).1)]
      swap
      · cases hh : e'.name with
        | nil => exact absurd hh h1
        | cons b t =>
          have := (h2 b (by rw [hh]; exact List.mem_cons_self)).2
          simpa using this
      refine Act.bind (content_act hio hwd (hc _ List.mem_cons_self)) ?_
      rintro o L1 S1 ⟨rfl, ⟨g0, frames, b, g1, g2, g3, rfl, g4, g5, g6⟩ | ⟨rfl, g⟩⟩
      · rw [if_neg (by simp [g0])]
        refine Act.bind (Act.need (Q := fun a l s' => a = b ∧ l = b.id :: L ∧ s' = S1) g3 ⟨rfl, rfl, rfl⟩) ?_
        rintro b1 _ _ ⟨i1, rfl, rfl⟩
        subst b1
        rw [g2]
        refine Act.bind (profileImage_act hs g4 g5 (hF _ List.mem_cons_self _ _ _ g1) h3 h4 (hn _ List.mem_cons_self) (ls ++ tail)) ?_
        rintro ⟨r, ls'⟩ L2 S2 ⟨rfl, ⟨X, hX⟩, ⟨q1, q2⟩ | ⟨figs, q1, q2, q3⟩⟩
        · have q1 : r = none := q1
          subst q1
          exact Act.pure ⟨rfl, ⟨X, hX⟩, ⟨true, .lost _ _ _ q2, fun _ => rfl, by simp⟩, by simp⟩
        · cases q1
          rw [g6] at q2
          simp only
          by_cases hnn : none ∈ figs
          · rw [if_pos (by simpa using hnn)]
            exact Act.pure ⟨rfl, ⟨X, hX⟩, ⟨true, .failed _ _ _ _ _ _ _ g1 q2 hnn, fun _ => rfl, by simp⟩, by simp⟩
          · rw [if_neg (by simpa using hnn)]
            refine Act.bind (ih' hf') ?_
            rintro ⟨l, b⟩ L3 S3 ⟨rfl, ⟨X3, hX3⟩, ⟨b', p1, p3, p4⟩, p2⟩
            have := q3 hnn
            exact Act.pure ⟨rfl, ⟨X3, hX3.trans (List.Perm.append_left _ this)⟩, ⟨b', .counted _ _ _ _ _ _ _ _ _ g1 q2 hnn p1, p3, p4⟩, fun h => (p2 h).trans this⟩
      · rw [if_pos (show o.error ≠ 0 from g.1)]
        have hpr : Printable s.cfg o.error := Unread.printable g (hcode _ List.mem_cons_self)
        obtain ⟨t, ht⟩ := printable_str hpr v.strerror
        refine Act.bind (Act.need (Q := fun a l s' => a = some t ∧ l = L1 ∧ s' = S1) ht ⟨rfl, rfl, rfl⟩) ?_
        rintro _ _ _ ⟨rfl, rfl, rfl⟩
        refine Act.bind (Act.need (Q := fun a l s' => l = _ ∧ s' = _) rfl ⟨rfl, rfl⟩) ?_
        rintro _ _ _ ⟨rfl, rfl⟩
        simp only
        refine Act.mono (ih' hf') ?_
        rintro ⟨l, b⟩ L3 S3 ⟨rfl, hX, ⟨b', p1, p3, p4⟩, p2⟩
        exact ⟨rfl, hX, ⟨b', .skipped _ _ _ _ _ (Unread.why g) p1, p3, p4⟩, p2⟩

/-- Nothing after the dictionary. -/
theorem tail_nil {F : Prop} {S : List ℕ} {L : List ℕ} {fuel : ℕ} (h : ([] : List (List UInt8)).length < fuel) :
    Act False F L S (profileLoop s io v fuel []) (fun r L' S' => S' = S ∧ (∃ X, L'.Perm (X ++ L)) ∧ r.1 = [] ∧ r.2 = false ∧ (r.2 = false → L'.Perm L)) := by
  obtain ⟨fuel, rfl⟩ : ∃ k, fuel = k + 1 := ⟨fuel - 1, by simp at h; omega⟩
  exact Act.pure ⟨rfl, ⟨[], List.Perm.refl _⟩, rfl, rfl, fun _ => List.Perm.refl _⟩

theorem strsep_head {t : List UInt8} (h : ∀ b ∈ t, isdigit b = false) : (strsep t).mapM (strtou ullMax) = none := by
  have key : ∃ p ps, strsep t = p :: ps ∧ ∀ b ∈ p, b ∈ t := by
    clear h
    induction t with
    | nil => exact ⟨[], [], rfl, by simp⟩
    | cons b t ih =>
      obtain ⟨p, ps, h1, h2⟩ := ih
      unfold strsep
      split
      · exact ⟨[], _, rfl, by simp⟩
      · rw [h1]
        refine ⟨b :: p, ps, rfl, ?_⟩
        intro x hx
        rcases List.mem_cons.mp hx with rfl | hx
        · exact List.mem_cons_self
        · exact List.mem_cons_of_mem _ (h2 x hx)
  obtain ⟨p, ps, h1, h2⟩ := key
  have hp : ∀ b ∈ p, isdigit b = false := fun b hb => h b (h2 b hb)
  have tw : ∀ q : List UInt8, (∀ b ∈ q, isdigit b = false) → q.takeWhile isdigit = [] := by
    intro q hq
    cases q with
    | nil => rfl
    | cons b q => exact List.takeWhile_cons_of_neg (by rw [hq b List.mem_cons_self]; simp)
  have : strtou ullMax p = none := by
    have hs : (subject p).2 = [] := by
      unfold subject
      have hd : ∀ b ∈ p.dropWhile isspace, isdigit b = false := fun b hb => hp b ((List.dropWhile_sublist _).subset hb)
      cases hq : p.dropWhile isspace with
      | nil => rfl
      | cons b q =>
        rw [hq] at hd
        simp only
        split
        · exact tw q (fun x hx => hd x (List.mem_cons_of_mem _ hx))
        · split
          · exact tw q (fun x hx => hd x (List.mem_cons_of_mem _ hx))
          · exact tw _ hd
    unfold strtou
    simp only
    rw [if_pos hs]
  rw [h1, List.mapM_cons, this]
  rfl

/-- An entry that breaks off. -/
theorem tail_torn (hio : io.Plain) (hwd : ∃ w : World, w.WF) {name : List UInt8} {c : Content} {tail : List (List UInt8)} (ht : Torn s name c tail)
    (h0 : name ≠ []) (h1 : ∀ b ∈ name, b ≠ 0 ∧ b ≠ ch '\n') (hc : Contains s io name c) (hcode : Printable s.cfg c.error) {L : List ℕ} {fuel : ℕ}
    (hf : tail.length < fuel) :
    Act False F L S (profileLoop s io v fuel tail) (fun r L' S' => S' = S ∧ (∃ X, L'.Perm (X ++ L)) ∧ r.1 = [] ∧ (r.2 = true ∨ F) ∧ (r.2 = false → L'.Perm L)) := by
  obtain ⟨fuel, rfl⟩ : ∃ k, fuel = k + 1 := ⟨fuel - 1, by omega⟩
  obtain ⟨rest, rfl, hrest⟩ : ∃ rest, tail = (name ++ [ch '\n']) :: rest ∧ (rest = [] ∨ (∃ l, rest = [l]) ∨ ∃ t1 t2 b1 b2, rest = [t1 ++ [b1], t2 ++ [b2]] ∧
      c.whole s ≠ none ∧ ((∀ b ∈ t1, isdigit b = false) ∨ (∀ b ∈ t2, isdigit b = false))) := by
    cases ht with
    | name => exact ⟨[], rfl, Or.inl rfl⟩
    | first l => exact ⟨[l], rfl, Or.inr (Or.inl ⟨l, rfl⟩)⟩
    | bad t1 t2 b1 b2 hw hb => exact ⟨_, rfl, Or.inr (Or.inr ⟨t1, t2, b1, b2, rfl, hw, hb⟩)⟩
  clear ht
  unfold profileLoop
  rw [if_neg, chop_line (fun b hb => (h1 b hb).1)]
  swap
  · cases hh : name with
    | nil => exact absurd hh h0
    | cons b t =>
      have := (h1 b (by rw [hh]; exact List.mem_cons_self)).2
      simpa using this
  refine Act.bind (content_act hio hwd hc) ?_
  rintro o L1 S1 ⟨rfl, ⟨g0, frames, b, g1, g2, g3, rfl, _⟩ | ⟨rfl, g⟩⟩
  · rw [if_neg (by simp [g0])]
    refine Act.bind (Act.need (Q := fun a l s' => a = b ∧ l = b.id :: L ∧ s' = S1) g3 ⟨rfl, rfl, rfl⟩) ?_
    rintro b1 _ S2 ⟨i1, rfl, rfl⟩
    subst b1
    have img : Act False F (b.id :: L) S2 (profileImage s v b o.nimages o.width o.height rest) (fun r L' S' => S' = S2 ∧ L'.Perm L ∧ r.1 = none) := by
      unfold profileImage
      have done0 : ∀ (ls : List (List UInt8)) {L1 S1}, L1.Perm (b.id :: L) → Act False F L1 S1 (do
          free (some b.id)
          return ((none : Option (List Figures)), ls)) (fun r L' S' => S' = S1 ∧ L'.Perm L ∧ r.1 = none) := by
        intro ls L1 S1 hp
        refine Act.bind (Act.free hp) ?_
        rintro _ _ _ ⟨rfl, rfl⟩
        exact Act.pure ⟨rfl, List.Perm.refl _, rfl⟩
      have done1 : ∀ (k : Buf ℕ) (ls : List (List UInt8)) {L1 S1}, L1.Perm (k.id :: b.id :: L) → Act False F L1 S1 (do
          freeBuf (some k)
          free (some b.id)
          return ((none : Option (List Figures)), ls)) (fun r L' S' => S' = S1 ∧ L'.Perm L ∧ r.1 = none) := by
        intro k ls L1 S1 hp
        refine Act.bind (freeBuf_act (b := some k) hp) ?_
        rintro _ L2 _ ⟨h3, rfl⟩
        exact done0 ls h3
      have chopped : ∀ {t : List UInt8} {x : UInt8}, (∀ b ∈ t, isdigit b = false) → (strsep (chop (t ++ [x]))).mapM (strtou ullMax) = none := by
        intro t x h
        refine strsep_head (fun y hy => h y ?_)
        unfold chop at hy
        rw [List.dropLast_concat] at hy
        exact (List.takeWhile_sublist _).subset hy
      rcases hrest with rfl | ⟨l, rfl⟩ | ⟨t1, t2, b1, b2, rfl, hw, hbad⟩
      · exact done0 _ (List.Perm.refl _)
      · simp only
        refine Act.bind (readres_act _) ?_
        rintro r L1 S1 ⟨rfl, ⟨rfl, hp, _⟩ | ⟨k, ks, _, rfl, rfl⟩⟩
        · exact done0 _ hp
        · exact done1 _ _ (List.Perm.refl _)
      · simp only
        refine Act.bind (readres_act _) ?_
        rintro r L1 S1 ⟨rfl, ⟨rfl, hp, _⟩ | ⟨k, ks, k1, rfl, rfl⟩⟩
        · exact done0 _ hp
        · have hbad := hbad.resolve_left (fun h => by rw [chopped h] at k1; cases k1)
          simp only
          refine Act.bind (readres_act _) ?_
          rintro r L1 S1 ⟨rfl, ⟨rfl, hp, _⟩ | ⟨k', ks', k2, rfl, rfl⟩⟩
          · exact done1 _ _ hp
          · rw [chopped hbad] at k2; cases k2
    refine Act.bind img ?_
    rintro ⟨r, ls⟩ L' S' ⟨rfl, hp, hr⟩
    have hr : r = none := hr
    subst hr
    exact Act.pure ⟨rfl, ⟨[], hp⟩, rfl, Or.inl rfl, fun _ => hp⟩
  · rw [if_pos (show o.error ≠ 0 from g.1)]
    have hpr : Printable s.cfg o.error := Unread.printable g hcode
    obtain ⟨t, ht⟩ := printable_str hpr v.strerror
    refine Act.bind (Act.need (Q := fun a l s' => a = some t ∧ l = L1 ∧ s' = S1) ht ⟨rfl, rfl, rfl⟩) ?_
    rintro _ _ _ ⟨rfl, rfl, rfl⟩
    refine Act.bind (Act.need (Q := fun a l s' => l = _ ∧ s' = _) rfl ⟨rfl, rfl⟩) ?_
    rintro _ _ _ ⟨rfl, rfl⟩
    rcases hrest with rfl | ⟨l, rfl⟩ | ⟨t1, t2, b1, b2, rfl, hw, _⟩
    · exact Act.pure ⟨rfl, ⟨[], List.Perm.refl _⟩, rfl, Or.inl rfl, by simp⟩
    · exact Act.pure ⟨rfl, ⟨[], List.Perm.refl _⟩, rfl, Or.inl rfl, by simp⟩
    · have hF : F := (Unread.why g).resolve_left hw
      simp only
      refine Act.mono (tail_nil (by simp at hf ⊢; omega)) ?_
      rintro r L' S' ⟨h1, h2, h3, h4, h5⟩
      exact ⟨h1, h2, h3, Or.inr hF, h5⟩

/-- Adding the figures of an image. -/
theorem addTotals_getElem {c : Cfg} (ts : List (ℕ × ℕ)) (figs : List (Option (ℕ × ℕ))) (k : ℕ) :
    (addTotals c ts figs)[k]? = ts[k]?.map (fun t => match figs[k]? with
      | some (some x) => (c.sz (t.1 + x.1), c.sz (t.2 + x.2))
      | _ => t) := by
  induction ts generalizing figs k with
  | nil => simp [addTotals]
  | cons t ts ih =>
    cases figs with
    | nil => cases h : (t :: ts)[k]? <;> simp [addTotals, h]
    | cons g figs =>
      cases g with
      | none => cases k with
        | zero => simp [addTotals]
        | succ k => simp [addTotals, ih]
      | some x => cases k with
        | zero => simp [addTotals]
        | succ k => simp [addTotals, ih]

theorem addTotals_length {c : Cfg} (ts : List (ℕ × ℕ)) (figs : List (Option (ℕ × ℕ))) : (addTotals c ts figs).length = ts.length := by
  induction ts generalizing figs with
  | nil => simp [addTotals]
  | cons t ts ih =>
    cases figs with
    | nil => simp [addTotals]
    | cons g figs => cases g <;> simp [addTotals, ih]

theorem totals_length {c : Cfg} (images : List (List (Option (ℕ × ℕ)))) (ts : List (ℕ × ℕ)) : (images.foldl (addTotals c) ts).length = ts.length := by
  induction images generalizing ts with
  | nil => rfl
  | cons g images ih => rw [List.foldl_cons, ih, addTotals_length]

theorem totals_eq {c : Cfg} (images : List (List (Option (ℕ × ℕ)))) (ts : List (ℕ × ℕ)) (k : ℕ) (h : ∀ t ∈ ts, t.1 ≤ c.sizeMax ∧ t.2 ≤ c.sizeMax) :
    (images.foldl (addTotals c) ts)[k]? = ts[k]?.map (fun t => ((t.1 + figureSum images k Prod.fst) % (c.sizeMax + 1), (t.2 + figureSum images k Prod.snd) % (c.sizeMax + 1))) := by
  induction images generalizing ts with
  | nil =>
    simp only [List.foldl_nil, figureSum, List.map_nil, List.sum_nil, Nat.add_zero]
    cases hk : ts[k]? with
    | none => rfl
    | some t =>
      have := h t (List.mem_of_getElem? hk)
      simp only [Option.map_some, Nat.mod_eq_of_lt (Nat.lt_succ_of_le this.1), Nat.mod_eq_of_lt (Nat.lt_succ_of_le this.2)]
  | cons g images ih =>
    have hb : ∀ t ∈ addTotals c ts g, t.1 ≤ c.sizeMax ∧ t.2 ≤ c.sizeMax := by
      intro t ht
      obtain ⟨j, hj⟩ := List.mem_iff_getElem?.mp ht
      rw [addTotals_getElem] at hj
      cases hk : ts[j]? with
      | none => rw [hk] at hj; cases hj
      | some t' =>
        rw [hk, Option.map_some, Option.some.injEq] at hj
        have h0 := h t' (List.mem_of_getElem? hk)
        rw [← hj]
        split
        · exact ⟨Nat.lt_succ_iff.mp (Nat.mod_lt _ (Nat.succ_pos _)), Nat.lt_succ_iff.mp (Nat.mod_lt _ (Nat.succ_pos _))⟩
        · exact h0
    rw [List.foldl_cons, ih _ hb, addTotals_getElem]
    cases hk : ts[k]? with
    | none => rfl
    | some t =>
      simp only [Option.map_some, figureSum, List.map_cons, List.sum_cons]
      cases hg : g[k]? with
      | none => simp
      | some x =>
        cases x with
        | none => simp
        | some x => simp [Cfg.sz, Nat.add_assoc]

end Verif
