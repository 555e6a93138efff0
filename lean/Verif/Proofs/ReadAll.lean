import Verif.Proofs.Play

/-! Reading all frames, one at a time and in bulk. -/

namespace Verif

variable {s : Sys} {fs : Fs} {r : Reader} {Ok : Ctx → ℕ → ℕ → Prop} {U F : Prop} {L S : List ℕ} {W H : ℕ} {i : RDImage} {x : Ctx}

/-- A handle in use. -/
structure Handle (s : Sys) (r : Reader) (Ok : Ctx → ℕ → ℕ → Prop) (W H : ℕ) (i : RDImage) (x : Ctx) : Prop where
  reader : i.reader = some r
  ctx : i.ctx = some x
  width : i.width = W
  height : i.height = H
  ok : Ok x W H
  within : Within s.cfg W H

theorem Handle.move (hi : Handle s r Ok W H i x) {x' : Ctx} (hx : Ok x' W H) : Handle s r Ok W H { i with ctx := some x' } x' :=
  ⟨hi.reader, rfl, hi.width, hi.height, hx, hi.within⟩

theorem Within.pos {c : Cfg} (h : Within c W H) : 0 < W * H := Nat.mul_pos h.1 h.2.1

/-- What is owned while an image and a buffer are in use. -/
def held (b : ℕ) (i : RDImage) (x : Ctx) (L : List ℕ) : List ℕ := b :: i.block :: (x.blocks ++ L)

theorem held_perm (b : ℕ) (i : RDImage) (x : Ctx) (L : List ℕ) : (held b i x L).Perm (x.blocks ++ (b :: i.block :: L)) := by
  unfold held
  have h1 : (x.blocks ++ (b :: i.block :: L)).Perm (b :: (x.blocks ++ (i.block :: L))) := List.perm_middle
  have h2 : (x.blocks ++ (i.block :: L)).Perm (i.block :: (x.blocks ++ L)) := List.perm_middle
  exact (h1.trans (h2.cons b)).symm

theorem Act.toPerm {α : Type} {m : M α} {P : α → List ℕ → List ℕ → Prop} {Q : α → List ℕ → List ℕ → Prop} (hm : Act U F L S m P)
    (h : ∀ a L' S', P a L' S' → ∃ L'', L'.Perm L'' ∧ Q a L'' S') : Act U F L S m Q := by
  intro base w hw
  rcases hm base w hw with h1 | ⟨a, w', L', S', e, o, p⟩
  · exact Or.inl h1
  · obtain ⟨L'', hp, q⟩ := h a L' S' p
    exact Or.inr ⟨a, w', L'', S', e, o.perm hp (List.Perm.refl _), q⟩

/-- Reading a frame through the API. -/
theorem Builtin.frame_act (hb : Builtin s fs r Ok) (hi : Handle s r Ok W H i x) {buf : Buf Fl} {off : ℕ}
    (hl : off + W * H ≤ buf.data.length) :
    Act (x.step s W H = none) F (held buf.id i x L) (x.files ++ S) (readImageFrame (some i) (some buf) off) (fun a L' S' =>
      ∃ o e x' data, x.step s W H = some (o, e, x') ∧ a = (o.isSome, e, some ⟨buf.id, buf.data.take off ++ data⟩, some { i with ctx := some x' }) ∧
        Spoilt (buf.data.drop off) data (W * H) ∧ (∀ f, o = some f → data = fill (buf.data.drop off) 0 f ∧ f.length = W * H ∧ e = 0) ∧
        (o = none → e = 0 → data = buf.data.drop off) ∧ Handle s r Ok W H { i with ctx := some x' } x' ∧
        L' = held buf.id i x' L ∧ S' = x'.files ++ S) := by
  have h1 := (hb.read_act (F := F) (L := buf.id :: i.block :: L) (S := S) hi.ok hi.within (img := buf.data.drop off)
    (by rw [List.length_drop]; omega)).of_perm (held_perm buf.id i x L) (List.Perm.refl _)
  have e1 : r.read x (buf.data.drop off) W H = r.read x (buf.data.drop off) i.width i.height := by rw [hi.width, hi.height]
  rw [e1] at h1
  refine (readFrame_act h1 hi.reader hi.ctx (by simp [held]) (by simp [held]) (by omega)).toPerm ?_
  rintro a L' S' ⟨v, ⟨o, e, x', hs, st, hx', rfl, rfl⟩, rfl⟩
  refine ⟨_, (held_perm buf.id i x' L).symm, o, e, x', v.2.2.1, hs, ?_, st.spoilt, st.frame, st.same, hi.move hx', rfl, rfl⟩
  rw [st.ret, st.error, st.ctx]

open Spec

/-- Reading frame by frame gives the frames of the context. -/
theorem Builtin.session_frames (hb : Builtin s fs r Ok) {frames : List (List Fl)} (hi : Handle s r Ok W H i x) {buf : Buf Fl}
    (hl : buf.data.length = W * H) {base w w' : World} (hw : Own F base (held buf.id i x L) (x.files ++ S) w)
    {e : RDError} {d : List Fl} {i' : Option RDImage} {b' : Option (Buf Fl)}
    (hs : session (List.replicate (frames.length + 1) .read) (some i) (some buf) w =
      some ((frames.map (.read true RDEOK) ++ [.read false e d], i', b'), w')) : x.frames s W H = (frames, some e) := by
  induction frames generalizing i x buf w with
  | nil =>
    simp only [List.length_nil, Nat.zero_add, List.replicate_succ, List.replicate_zero, List.map_nil, List.nil_append, session,
      istep] at hs
    rcases hb.frame_act (F := F) (L := L) (S := S) hi (buf := buf) (off := 0) (by omega) base w hw with ⟨h1, _⟩ | ⟨a, w1, L1, S1, h1, _, o, e', x', data, hst, rfl, _⟩
    · have : (readImageFrame (some i) (some buf) 0 w) = none := h1
      simp only [bind_assoc] at hs
      rw [M.bind_none this] at hs
      cases hs
    · simp only [bind_assoc] at hs
      rw [M.bind_some h1] at hs
      simp only [pure_bind] at hs
      have hs' := Option.some.inj hs
      simp only [Prod.mk.injEq, List.cons.injEq, IObs.read.injEq] at hs'
      cases o with
      | none => rw [Ctx.frames_stop hst, hs'.1.1.1.2.1]
      | some f => simp at hs'
  | cons f frames ih =>
    rw [List.length_cons, List.replicate_succ] at hs
    simp only [List.map_cons, List.cons_append, session, istep] at hs
    rcases hb.frame_act (F := F) (L := L) (S := S) hi (buf := buf) (off := 0) (by omega) base w hw with ⟨h1, _⟩ | ⟨a, w1, L1, S1, h1, o1, o, e', x', data, hst, rfl, hsp, hfr, _, hi', rfl, rfl⟩
    · have : (readImageFrame (some i) (some buf) 0 w) = none := h1
      simp only [bind_assoc] at hs
      rw [M.bind_none this] at hs
      cases hs
    · simp only [bind_assoc] at hs
      rw [M.bind_some h1] at hs
      simp only [pure_bind] at hs
      obtain ⟨⟨os, i2, b2⟩, w2, h2, h3⟩ := M.bind_eq_some.mp hs
      have h3' := Option.some.inj h3
      simp only [Prod.mk.injEq, List.cons.injEq, IObs.read.injEq] at h3'
      obtain ⟨⟨⟨⟨hret, he, hd⟩, hos⟩, rfl, rfl⟩, rfl⟩ := h3'
      cases o with
      | none => simp at hret
      | some g =>
        obtain ⟨hf1, hf2, _⟩ := hfr g rfl
        have hd' : data = g := by
          rw [hf1]
          simp only [List.drop_zero]
          exact fill_zero (by rw [hf2, hl])
        subst hd'
        simp only [List.take_zero, List.nil_append, Option.map_some, Option.getD_some] at hd h2
        subst hd
        rw [hos] at h2
        have := ih (i := { i with ctx := some x' }) hi' (buf := ⟨buf.id, data⟩) hf2 o1 h2
        rw [Ctx.frames_next hi.within.pos hst, this]

/-- Room for `k` images. -/
def Roomy (c : Cfg) (P k : ℕ) : Prop := P * k ≤ c.pixelMax ∧ P * k * 4 ≤ c.sizeMax

theorem roomy_iff {c : Cfg} (hw : Within c W H) {k : ℕ} (hk : 0 < k) : dimsExceedLimit c W H k 4 = false ↔ Roomy c (W * H) k := by
  rw [dimsExceedLimit_false (by omega)]
  unfold Roomy
  exact ⟨fun h => ⟨h.2.2.2.1, h.2.2.2.2⟩, fun h => ⟨hw.1, hw.2.1, hk, h.1, h.2⟩⟩

theorem Roomy.mono {c : Cfg} {P k k' : ℕ} (h : Roomy c P k) (hk : k' ≤ k) : Roomy c P k' :=
  ⟨le_trans (Nat.mul_le_mul_left _ hk) h.1, le_trans (Nat.mul_le_mul_right _ (Nat.mul_le_mul_left _ hk)) h.2⟩

/-- What bulk reading leaves, having started with `n` images `acc` read and `fr` to come. -/
structure Bulk (c : Cfg) (P n : ℕ) (acc : List Fl) (fr : List (List Fl) × Option RDError) (F : Prop) (e : RDError) (buf : Buf Fl) (n' : ℕ) : Prop where
  cases : (fr.2 = some e ∧ n' = n + fr.1.length ∧ buf.data.length = P * (n' + 1) ∧ buf.data.take (P * n') = acc ++ fr.1.flatten ∧ Roomy c P (n' + 1)) ∨
    (e = RDETOOBIG ∧ ¬ Roomy c P (n + fr.1.length + 1)) ∨ (e = RDENOMEM ∧ F)

theorem Builtin.readLoop_act (hb : Builtin s fs r Ok) (hi : Handle s r Ok W H i x) {fuel n : ℕ} {buf : Buf Fl} {acc : List Fl}
    (hl : buf.data.length = W * H * (n + 1)) (ha : buf.data.take (W * H * n) = acc) (hf : Roomy s.cfg (W * H) (n + 1))
    (hfuel : s.cfg.pixelMax < fuel + n) :
    Act ((x.frames s W H).2 = none) F (held buf.id i x L) (x.files ++ S) (readLoop s W H fuel i buf n) (fun a L' S' =>
      Bulk s.cfg (W * H) n acc (x.frames s W H) F a.1 a.2.1 a.2.2.1 ∧
      ∃ x', Handle s r Ok W H a.2.2.2 x' ∧ L' = held a.2.1.id a.2.2.2 x' L ∧ S' = x'.files ++ S) := by
  induction fuel generalizing n buf acc i x with
  | zero =>
    exfalso
    have h1 := hf.1
    have h2 := Nat.le_mul_of_pos_left (n + 1) hi.within.pos
    omega
  | succ fuel ih =>
    unfold readLoop
    have hP := hi.within.pos
    have hn1 := Nat.le_mul_of_pos_left (n + 1) hP
    have hf2 := hf.2
    have e1 : s.cfg.sz (W * H) = W * H := sz_eq hi.within.le
    have hPn : W * H * n ≤ W * H * (n + 1) := Nat.mul_le_mul_left _ (by omega)
    have e2 : s.cfg.sz (W * H * n) = W * H * n := sz_eq (by omega)
    have hmul : W * H * (n + 1) = W * H * n + W * H := by rw [Nat.mul_add, Nat.mul_one]
    simp only [e1, e2]
    refine Act.bind (Act.weaken (hb.frame_act (F := F) (L := L) (S := S) hi (buf := buf) (off := W * H * n) (by omega))
      (fun h => by rw [Ctx.frames_none h]) Iff.rfl) ?_
    rintro a L1 S1 ⟨o, e, x', data, hst, rfl, hsp, hfr, _, hi', rfl, rfl⟩
    simp only
    refine Act.bind (Act.need (Q := fun a l s' => a = _ ∧ l = held buf.id i x' L ∧ s' = x'.files ++ S) rfl ⟨rfl, rfl, rfl⟩) ?_
    rintro _ _ _ ⟨rfl, rfl, rfl⟩
    refine Act.bind (Act.need (Q := fun a l s' => a = _ ∧ l = held buf.id i x' L ∧ s' = x'.files ++ S) rfl ⟨rfl, rfl, rfl⟩) ?_
    rintro _ _ _ ⟨rfl, rfl, rfl⟩
    cases o with
    | none =>
      simp only [Option.isSome_none, Bool.not_false, if_true]
      refine Act.pure ⟨⟨Or.inl ?_⟩, x', hi', rfl, rfl⟩
      rw [Ctx.frames_stop hst]
      have hdl : data.length = W * H := by rw [hsp.1, List.length_drop, hl]; omega
      have htl : (buf.data.take (W * H * n)).length = W * H * n := by rw [List.length_take]; omega
      refine ⟨rfl, by simp, ?_, ?_, hf⟩
      · simp only [List.length_append, htl, hdl]; omega
      · simp only [List.flatten_nil, List.append_nil]
        rw [← ha, List.take_append_of_le_length (by omega), List.take_take, Nat.min_self]
    | some f =>
      obtain ⟨hf1, hf2', he0⟩ := hfr f rfl
      have hdf : data = f := by
        rw [hf1]; exact fill_zero (by rw [hf2', List.length_drop]; omega)
      subst hdf
      have htl : (buf.data.take (W * H * n)).length = W * H * n := by rw [List.length_take]; omega
      have hfrn := Ctx.frames_next hP hst
      simp only [Option.isSome_some, Bool.not_true, Bool.false_eq_true, if_false]
      have e3 : s.cfg.sz (n + 1) = n + 1 := sz_eq (by omega)
      have e4 : s.cfg.sz (n + 1 + 1) = n + 1 + 1 := sz_eq (by omega)
      simp only [e3, e4]
      by_cases hd : dimsExceedLimit s.cfg W H (n + 1 + 1) 4 = true
      · rw [if_pos hd]
        refine Act.pure ⟨⟨Or.inr (Or.inl ⟨rfl, ?_⟩)⟩, x', hi', rfl, rfl⟩
        intro hfit
        have := (roomy_iff hi.within (by omega)).mpr (hfit.mono (k' := n + 1 + 1) (by rw [hfrn]; simp))
        rw [this] at hd; cases hd
      · rw [if_neg hd]
        have hfit := (roomy_iff hi.within (by omega)).mp (Bool.eq_false_of_not_eq_true hd)
        refine Act.bind (Act.realloc (R := i.block :: (x'.blocks ++ L)) (List.Perm.refl _)) ?_
        rintro rb L2 S2 ⟨hS2, ⟨rfl, rfl, hF⟩ | ⟨b, rfl, rfl⟩⟩ <;> subst S2
        · exact Act.pure ⟨⟨Or.inr (Or.inr ⟨rfl, hF⟩)⟩, x', hi', rfl, rfl⟩
        · simp only
          have hf4 := hfit.2
          have e5 : s.cfg.sz (W * H * (n + 1 + 1)) = W * H * (n + 1 + 1) := sz_eq (by omega)
          have e6 : s.cfg.sz (W * H * (n + 1 + 1) * 4) = W * H * (n + 1 + 1) * 4 := sz_eq hf4
          rw [e5, e6, Nat.mul_div_cancel _ (by omega)]
          have hmul2 : W * H * (n + 1 + 1) = W * H * (n + 1) + W * H := by rw [Nat.mul_add, Nat.mul_one]
          have hdl : (buf.data.take (W * H * n) ++ data).length = W * H * (n + 1) := by
            rw [List.length_append, htl, hf2']; omega
          have := ih (i := { i with ctx := some x' }) (x := x') hi' (n := n + 1)
            (buf := ⟨b, resize s (buf.data.take (W * H * n) ++ data) (W * H * (n + 1 + 1))⟩) (acc := acc ++ data) ?_ ?_ hfit (by omega)
          · refine Act.mono (Act.weaken this (fun h => by rw [hfrn]; exact h) Iff.rfl) ?_
            rintro ⟨e', buf', n', i'⟩ L' S' ⟨⟨hbulk⟩, rest⟩
            refine ⟨⟨?_⟩, rest⟩
            rw [hfrn]
            rcases hbulk with ⟨h1, h2, h3, h4, h5⟩ | ⟨h1, h2⟩ | h1
            · refine Or.inl ⟨h1, by have h2' : n' = _ := h2; simp only [List.length_cons]; omega, h3, ?_, h5⟩
              rw [h4]; simp
            · refine Or.inr (Or.inl ⟨h1, ?_⟩)
              simp only [List.length_cons]
              have e7 : n + ((x'.frames s W H).1.length + 1) + 1 = n + 1 + (x'.frames s W H).1.length + 1 := by omega
              rw [e7]; exact h2
            · exact Or.inr (Or.inr h1)
          · unfold resize
            simp only [List.length_take, List.length_append, List.length_replicate]
            omega
          · unfold resize
            rw [List.take_take, Nat.min_eq_left (by omega), List.take_append_of_le_length (by omega), ← ha, ← hdl]
            exact List.take_length

/-- What bulk reading does with any reader that keeps the contract. -/
theorem readLoop_safe (hr : r.Sound s.cfg (fun _ => True) True F Ok) (hi : Handle s r Ok W H i x) {fuel n : ℕ} {buf : Buf Fl}
    (hl : buf.data.length = W * H * (n + 1)) (hf : Roomy s.cfg (W * H) (n + 1)) (hfuel : s.cfg.pixelMax < fuel + n) :
    Act True F (held buf.id i x L) (x.files ++ S) (readLoop s W H fuel i buf n) (fun a L' S' =>
      Code a.1 ∧ (a.1 = 0 → a.2.1.data.length = W * H * (a.2.2.1 + 1) ∧ Roomy s.cfg (W * H) (a.2.2.1 + 1)) ∧
      ∃ x', Handle s r Ok W H a.2.2.2 x' ∧ L' = held a.2.1.id a.2.2.2 x' L ∧ S' = x'.files ++ S) := by
  induction fuel generalizing n buf i x with
  | zero =>
    exfalso
    have h1 := hf.1
    have h2 := Nat.le_mul_of_pos_left (n + 1) hi.within.pos
    omega
  | succ fuel ih =>
    unfold readLoop
    have hP := hi.within.pos
    have hn1 := Nat.le_mul_of_pos_left (n + 1) hP
    have hf2 := hf.2
    have e1 : s.cfg.sz (W * H) = W * H := sz_eq hi.within.le
    have hPn : W * H * n ≤ W * H * (n + 1) := Nat.mul_le_mul_left _ (by omega)
    have e2 : s.cfg.sz (W * H * n) = W * H * n := sz_eq (by omega)
    have hmul : W * H * (n + 1) = W * H * n + W * H := by rw [Nat.mul_add, Nat.mul_one]
    simp only [e1, e2]
    have h1 := (hr.reads (buf.id :: i.block :: L) S x (buf.data.drop (W * H * n)) W H hi.ok hi.within
      (by rw [List.length_drop]; omega)).of_perm (held_perm buf.id i x L) (List.Perm.refl _)
    have e1' : r.read x (buf.data.drop (W * H * n)) W H = r.read x (buf.data.drop (W * H * n)) i.width i.height := by rw [hi.width, hi.height]
    rw [e1'] at h1
    refine Act.bind ((readFrame_act h1 hi.reader hi.ctx (by simp [held]) (by simp [held]) (by omega)).toPerm
      (Q := fun a L' S' => ∃ ret e data x', a = (ret, e, some ⟨buf.id, buf.data.take (W * H * n) ++ data⟩, some { i with ctx := some x' }) ∧
        data.length = W * H ∧ Code e ∧ Handle s r Ok W H { i with ctx := some x' } x' ∧ L' = held buf.id i x' L ∧ S' = x'.files ++ S) ?_) ?_
    · rintro a L' S' ⟨v, ⟨hsp, _, hc, hx', rfl, rfl⟩, rfl⟩
      refine ⟨_, (held_perm buf.id i v.2.2.2 L).symm, v.1, v.2.1, v.2.2.1, v.2.2.2, rfl, ?_, hc, hi.move hx', rfl, rfl⟩
      rw [hsp.1, List.length_drop]; omega
    rintro a L1 S1 ⟨ret, e, data, x', rfl, hdl, hc, hi', rfl, rfl⟩
    simp only
    refine Act.bind (Act.need (Q := fun a l s' => a = _ ∧ l = held buf.id i x' L ∧ s' = x'.files ++ S) rfl ⟨rfl, rfl, rfl⟩) ?_
    rintro _ _ _ ⟨rfl, rfl, rfl⟩
    refine Act.bind (Act.need (Q := fun a l s' => a = _ ∧ l = held buf.id i x' L ∧ s' = x'.files ++ S) rfl ⟨rfl, rfl, rfl⟩) ?_
    rintro _ _ _ ⟨rfl, rfl, rfl⟩
    have htl : (buf.data.take (W * H * n)).length = W * H * n := by rw [List.length_take]; omega
    cases ret with
    | false =>
      simp only [Bool.not_false, if_true]
      refine Act.pure ⟨hc, fun _ => ⟨?_, hf⟩, x', hi', rfl, rfl⟩
      simp only [List.length_append, htl, hdl]; omega
    | true =>
      simp only [Bool.not_true, Bool.false_eq_true, if_false]
      have e3 : s.cfg.sz (n + 1) = n + 1 := sz_eq (by omega)
      have e4 : s.cfg.sz (n + 1 + 1) = n + 1 + 1 := sz_eq (by omega)
      simp only [e3, e4]
      by_cases hd : dimsExceedLimit s.cfg W H (n + 1 + 1) 4 = true
      · rw [if_pos hd]
        exact Act.pure ⟨code_toobig, fun h => absurd h (show RDETOOBIG ≠ 0 by decide), x', hi', rfl, rfl⟩
      · rw [if_neg hd]
        have hfit := (roomy_iff hi.within (by omega)).mp (Bool.eq_false_of_not_eq_true hd)
        refine Act.bind (Act.realloc (R := i.block :: (x'.blocks ++ L)) (List.Perm.refl _)) ?_
        rintro rb L2 S2 ⟨hS2, ⟨rfl, rfl, hF⟩ | ⟨b, rfl, rfl⟩⟩ <;> subst S2
        · exact Act.pure ⟨code_nomem, fun h => absurd h (show RDENOMEM ≠ 0 by decide), x', hi', rfl, rfl⟩
        · simp only
          have hf4 := hfit.2
          have e5 : s.cfg.sz (W * H * (n + 1 + 1)) = W * H * (n + 1 + 1) := sz_eq (by omega)
          have e6 : s.cfg.sz (W * H * (n + 1 + 1) * 4) = W * H * (n + 1 + 1) * 4 := sz_eq hf4
          rw [e5, e6, Nat.mul_div_cancel _ (by omega)]
          refine ih (i := { i with ctx := some x' }) (x := x') hi' (n := n + 1)
            (buf := ⟨b, resize s (buf.data.take (W * H * n) ++ data) (W * H * (n + 1 + 1))⟩) ?_ hfit (by omega)
          unfold resize
          have hmul2 : W * H * (n + 1 + 1) = W * H * (n + 1) + W * H := by rw [Nat.mul_add, Nat.mul_one]
          simp only [List.length_take, List.length_append, List.length_replicate]
          omega

end Verif
