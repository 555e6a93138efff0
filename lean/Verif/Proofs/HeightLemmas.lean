import Verif.Proofs.EraseLemmas
import Verif.Proofs.DetectLemmas
import Verif.Spec.Heights

/-! Analyses that differ only in the coefficients and in the scores of the widths. -/

namespace Verif

open Spec

/-- Equal up to the contents of the coefficient buffer and of the scores of the widths. -/
structure EqX (a b : Analysis) : Prop where
  f : a.f.map Buf.id = b.f.map Buf.id
  x : a.xresult.map Buf.id = b.xresult.map Buf.id
  eq : b = { a with f := b.f, xresult := b.xresult }

theorem EqX.refl (a : Analysis) : EqX a a := ⟨rfl, rfl, rfl⟩

theorem EqX.symm {a b : Analysis} (h : EqX a b) : EqX b a :=
  ⟨h.f.symm, h.x.symm, by have := h.eq; cases a; cases b; simp only at this ⊢; cases this; rfl⟩

theorem EqF.eqX {a b : Analysis} (h : EqF a b) : EqX a b := by
  obtain ⟨fa, fb, h1, h2, h3, h4, rfl⟩ := h
  exact ⟨by rw [h1]; simp [h3], rfl, rfl⟩

theorem EqX.owned {a b : Analysis} (h : EqX a b) : owned b = owned a := by
  have h1 := h.f
  have h2 := h.x
  rw [h.eq]
  unfold Spec.owned
  simp only [h1, h2]

theorem EqX.legal {a b : Analysis} (h : EqX a b) {c : Call} (hl : Legal a c) : Legal b c := by
  have ho := h.owned
  have e := h.eq
  refine ⟨hl.1, by rw [ho]; exact hl.2.1, ?_⟩
  rw [e]
  exact hl.2.2

/-- What a detection method does to memory does not depend on the scores so far. -/
theorem detect_same {s : Sys} {d : Detect} {f : List Fl} {length n stride dist range : ℕ} {r q r' q' : List Fl} {b b1 b2 : ℕ × ℕ}
    {w w1 w2 : World} {e1 e2 : RDError} (h1 : detect s d f length n stride dist range r b w = some ((e1, r', b1), w1))
    (h2 : detect s d f length n stride dist range q b w = some ((e2, q', b2), w2)) : e1 = e2 ∧ b1 = b2 ∧ w1 = w2 := by
  have lift : ∀ {α : Type} {o : Option α} {x : α} {w w' : World}, M.lift o w = some (x, w') → w' = w := by
    intro α o x w w' h
    unfold M.lift at h
    cases o with
    | none => cases h
    | some v => cases h; rfl
  cases d with
  | orig =>
    simp only [detect, detectOrig] at h1 h2
    by_cases hc : s.cfg.idx (s.cfg.idx range * 2) ≥ length
    · rw [if_pos hc] at h1 h2
      cases h1
      cases h2
      exact ⟨rfl, rfl, rfl⟩
    · rw [if_neg hc] at h1 h2
      obtain ⟨x, v, g1, k1⟩ := M.bind_inv h1
      obtain ⟨y, v', g2, k2⟩ := M.bind_inv h2
      rw [g1] at g2
      cases g2
      cases x with
      | none =>
        cases k1
        cases k2
        exact ⟨rfl, rfl, rfl⟩
      | some block =>
        obtain ⟨_, v1, i1, k1a⟩ := M.bind_inv k1
        obtain ⟨_, v2, i2, k1b⟩ := M.bind_inv k1a
        obtain ⟨_, v3, i3, k1c⟩ := M.bind_inv k1b
        obtain ⟨_, u1, j1, k2a⟩ := M.bind_inv k2
        obtain ⟨_, u2, j2, k2b⟩ := M.bind_inv k2a
        obtain ⟨_, u3, j3, k2c⟩ := M.bind_inv k2b
        obtain rfl := lift i1
        obtain rfl := lift i2
        obtain rfl := lift j1
        obtain rfl := lift j2
        rw [i3] at j3
        cases j3
        cases k1c
        cases k2c
        exact ⟨rfl, rfl, rfl⟩
  | sign =>
    simp only [detect] at h1 h2
    obtain ⟨_, v, g1, k1⟩ := M.bind_inv h1
    obtain ⟨_, u, g2, k2⟩ := M.bind_inv h2
    obtain rfl := lift g1
    obtain rfl := lift g2
    cases k1
    cases k2
    exact ⟨rfl, rfl, rfl⟩
  | mag =>
    simp only [detect] at h1 h2
    obtain ⟨_, v, g1, k1⟩ := M.bind_inv h1
    obtain ⟨_, u, g2, k2⟩ := M.bind_inv h2
    obtain rfl := lift g1
    obtain rfl := lift g2
    cases k1
    cases k2
    exact ⟨rfl, rfl, rfl⟩
  | zerox =>
    simp only [detect] at h1 h2
    obtain ⟨_, v, g1, k1⟩ := M.bind_inv h1
    obtain ⟨_, u, g2, k2⟩ := M.bind_inv h2
    obtain rfl := lift g1
    obtain rfl := lift g2
    cases k1
    cases k2
    exact ⟨rfl, rfl, rfl⟩

theorem detectDim_same {s : Sys} {d : Detect} {f : List Fl} {length n stride dist range : ℕ} {r q r' q' : Option (Buf Fl)}
    {b b1 b2 : Option (ℕ × ℕ)} {w w1 w2 : World} {e1 e2 : RDError} (hid : r.map Buf.id = q.map Buf.id)
    (h1 : detectDim s d f length n stride dist range r b w = some ((e1, r', b1), w1))
    (h2 : detectDim s d f length n stride dist range q b w = some ((e2, q', b2), w2)) : e1 = e2 ∧ r'.map Buf.id = q'.map Buf.id ∧ b1 = b2 ∧ w1 = w2 := by
  cases r with
  | none =>
    cases q with
    | none => cases h1; cases h2; exact ⟨rfl, rfl, rfl, rfl⟩
    | some q => cases hid
  | some r =>
    cases q with
    | none => cases hid
    | some q =>
      simp only [Option.map_some, Option.some.injEq] at hid
      simp only [detectDim] at h1 h2
      rw [← hid] at h2
      obtain ⟨_, v1, g1, k1⟩ := M.bind_inv h1
      obtain ⟨_, v2, g2, k2⟩ := M.bind_inv h2
      rw [g1] at g2
      cases g2
      obtain ⟨_, v3, g1, k1⟩ := M.bind_inv k1
      obtain ⟨_, v4, g2, k2⟩ := M.bind_inv k2
      rw [g1] at g2
      cases g2
      obtain ⟨⟨_, _, _⟩, v5, g1, k1⟩ := M.bind_inv k1
      obtain ⟨⟨_, _, _⟩, v6, g2, k2⟩ := M.bind_inv k2
      cases k1
      cases k2
      obtain ⟨h1, h2, h3⟩ := detect_same g1 g2
      exact ⟨h1, by simp [hid], by rw [h2], h3⟩

theorem afterTransform_eqX {s : Sys} {a b a' b' : Analysis} (hab : EqX a b) {fa fb : Buf Fl} (hid : fa.id = fb.id) {f : List Fl}
    {w w1 w2 : World} {e1 e2 : RDError} (h1 : afterTransform s a fa f w = some ((e1, some a'), w1))
    (h2 : afterTransform s b fb f w = some ((e2, some b'), w2)) : e1 = e2 ∧ EqX a' b' := by
  have hx := hab.x
  rw [hab.eq] at h2
  generalize b.xresult = bx at h2 hx
  simp only [afterTransform] at h1 h2
  obtain ⟨⟨e, xr, xb⟩, v1, g1, k1⟩ := M.bind_inv h1
  obtain ⟨⟨e', xr', xb'⟩, v2, g2, k2⟩ := M.bind_inv h2
  obtain ⟨rfl, hr, rfl, rfl⟩ := detectDim_same hx g1 g2
  simp only at k1 k2
  by_cases he : e ≠ RDEOK
  · rw [if_pos he] at k1 k2
    cases k1
    cases k2
    exact ⟨rfl, by simp [hid], hr, rfl⟩
  · rw [if_neg he] at k1 k2
    obtain ⟨⟨e, yr, yb⟩, v1, g1, k1⟩ := M.bind_inv k1
    obtain ⟨⟨e', yr', yb'⟩, v2, g2, k2⟩ := M.bind_inv k2
    rw [g1] at g2
    cases g2
    simp only at k1 k2
    by_cases he : e ≠ RDEOK
    · rw [if_pos he] at k1 k2
      cases k1
      cases k2
      exact ⟨rfl, by simp [hid], hr, rfl⟩
    · rw [if_neg he] at k1 k2
      cases k1
      cases k2
      exact ⟨rfl, by simp [hid], hr, rfl⟩

theorem allocList_same {l l' : List Res} {w : World} : ∃ e r r' w', allocList l w = some ((e, r), w') ∧
    allocList l' w = some ((e, r'), w') ∧ r.map Buf.id = r'.map Buf.id := by
  unfold allocList
  rw [M.bind_apply, M.bind_apply]
  cases hm : malloc w with
  | none =>
    unfold malloc at hm
    split at hm <;> cases hm
  | some v =>
    obtain ⟨x, w'⟩ := v
    cases x with
    | none => exact ⟨_, _, _, _, rfl, rfl, rfl⟩
    | some b => exact ⟨_, _, _, _, rfl, rfl, rfl⟩

theorem freeBuf_same {α β : Type} {r : Option (Buf α)} {q : Option (Buf β)} (h : r.map Buf.id = q.map Buf.id) :
    freeBuf r = freeBuf q := by
  unfold freeBuf
  rw [h]

/-- The same results, but for the widths. -/
theorem resultsProg_eqX {s : Sys} {a b : Analysis} (hab : EqX a b) {ptr : Ptrs} {w w1 w2 : World} {e1 e2 : RDError} {o1 o2 : Out}
    {r1 r2 : Option Analysis} (h1 : resultsProg s a ptr w = some ((e1, o1, r1), w1))
    (h2 : resultsProg s b ptr w = some ((e2, o2, r2), w2)) :
    SameHeights (.results e1 (o1.rw.map Buf.data) o1.cw (o1.rh.map Buf.data) o1.ch)
      (.results e2 (o2.rw.map Buf.data) o2.cw (o2.rh.map Buf.data) o2.ch) ∧ r1 = some a ∧ r2 = some b := by
  have dy : dimList s b b.height b.yresult = dimList s a a.height a.yresult := by rw [hab.eq]; rfl
  have dn : b.nimages = a.nimages := by rw [hab.eq]
  rw [resultsProg_eq] at h1 h2
  rw [dy, dn] at h2
  by_cases hb : ((ptr.rw && !ptr.cw) || (ptr.rh && !ptr.ch)) = true
  · rw [if_pos hb] at h1 h2
    cases h1
    cases h2
    exact ⟨⟨rfl, rfl, rfl, rfl⟩, rfl, rfl⟩
  rw [if_neg hb] at h1 h2
  by_cases hn : a.nimages = 0
  · rw [if_pos hn] at h1 h2
    cases h1
    cases h2
    exact ⟨⟨rfl, rfl, rfl, rfl⟩, rfl, rfl⟩
  rw [if_neg hn] at h1 h2
  obtain ⟨⟨e, r⟩, v1, g1, k1⟩ := M.bind_inv h1
  obtain ⟨⟨e', r'⟩, v2, g2, k2⟩ := M.bind_inv h2
  have hx : e = e' ∧ r.map Buf.id = r'.map Buf.id ∧ v1 = v2 := by
    split at g1
    · rename_i hp
      rw [if_pos hp] at g2
      obtain ⟨e0, r0, r0', w0, f1, f2, f3⟩ := allocList_same (l := dimList s a a.width a.xresult) (l' := dimList s b b.width b.xresult)
        (w := w)
      rw [f1] at g1
      rw [f2] at g2
      cases g1
      cases g2
      exact ⟨rfl, f3, rfl⟩
    · rename_i hp
      rw [if_neg hp] at g2
      cases g1
      cases g2
      exact ⟨rfl, rfl, rfl⟩
  obtain ⟨rfl, hr, rfl⟩ := hx
  have hsome : r.isSome = r'.isSome := by
    cases r <;> cases r' <;> first | rfl | cases hr
  simp only at k1 k2
  by_cases he : e ≠ 0
  · rw [if_pos he] at k1 k2
    obtain ⟨_, u1, i1, k1⟩ := M.bind_inv k1
    obtain ⟨_, u2, i2, k2⟩ := M.bind_inv k2
    cases k1
    cases k2
    exact ⟨⟨rfl, rfl, rfl, rfl⟩, rfl, rfl⟩
  rw [if_neg he] at k1 k2
  obtain ⟨⟨e2, q⟩, u1, i1, k1⟩ := M.bind_inv k1
  obtain ⟨⟨e2', q'⟩, u2, i2, k2⟩ := M.bind_inv k2
  rw [i1] at i2
  cases i2
  simp only at k1 k2
  by_cases he : e2 ≠ 0
  · rw [if_pos he] at k1 k2
    obtain ⟨_, u1, i1, k1⟩ := M.bind_inv k1
    obtain ⟨_, u1, i1, k1⟩ := M.bind_inv k1
    obtain ⟨_, u2, i2, k2⟩ := M.bind_inv k2
    obtain ⟨_, u2, i2, k2⟩ := M.bind_inv k2
    cases k1
    cases k2
    exact ⟨⟨rfl, rfl, rfl, rfl⟩, rfl, rfl⟩
  rw [if_neg he] at k1 k2
  cases k1
  cases k2
  exact ⟨⟨rfl, by simpa using hsome, rfl, rfl⟩, rfl, rfl⟩

theorem step_eqX {s : Sys} (hs : Build s) {a b a' : Analysis} (hg : Good s a) (hgb : Good s b) (hab : EqX a b) {c : Call} (hl : Legal a c)
    {o : Obs} (h : step s a c = some (o, a')) : ∃ o' b', step s b c = some (o', b') ∧ SameHeights o o' ∧ EqX a' b' := by
  have hlb := hab.legal hl
  have liveA := Legal.live hl
  have liveB := Legal.live hlb
  have wid : b.width = a.width := by rw [hab.eq]
  have hei : b.height = a.height := by rw [hab.eq]
  obtain ⟨o', b', hb, _⟩ := step_cases hs hgb hlb
  refine ⟨o', b', hb, ?_⟩
  obtain ⟨op, w⟩ := c
  cases op with
  | results ptr =>
    have e1 := analysisResults_eq hs hg (ptr := ptr) liveA
    have e2 := analysisResults_eq hs hgb (ptr := ptr) liveB
    simp only at e1 e2
    unfold step at h hb
    simp only at h hb
    rw [e1] at h
    rw [e2] at hb
    split at h
    · rename_i x1 x2 x3 x4 h1
      cases h
      split at hb
      · rename_i y1 y2 y3 y4 h2
        cases hb
        obtain ⟨g1, g2, g3⟩ := resultsProg_eqX hab h1 h2
        cases g2
        cases g3
        exact ⟨g1, hab⟩
      · cases hb
    · cases h
  | analyze image =>
    unfold step at h hb
    simp only at h hb
    cases image with
    | none =>
      simp only [analyzeImage, M.pure_apply, Option.some.injEq, Prod.mk.injEq] at h hb
      obtain ⟨rfl, rfl⟩ := h
      obtain ⟨rfl, rfl⟩ := hb
      exact ⟨rfl, hab⟩
    | some im =>
      have hi : a.width * a.height ≤ im.length := hl.2.2
      have hib : b.width * b.height ≤ im.length := by rw [wid, hei]; exact hi
      obtain ⟨p, hp, _⟩ := hg.p
      have hpb : b.p = some p := by rw [hab.eq]; exact hp
      obtain ⟨fa, h1, _⟩ := hg.f
      obtain ⟨fb, h2, _⟩ := hgb.f
      have hid : fa.id = fb.id := by
        have := hab.f
        rw [h1, h2] at this
        exact Option.some.inj this
      by_cases hall : AllFinite im (a.width * a.height)
      · rw [analyzeImage_finite hs.wf hg hi hall h1 hp liveA] at h
        rw [analyzeImage_finite hs.wf hgb hib (by rw [wid, hei]; exact hall) h2 hpb liveB] at hb
        have hfr : frame s b im = frame s a im := by unfold frame; rw [wid, hei]
        rw [hfr] at hb
        split at h
        · rename_i x1 x2 x3 g1
          cases h
          split at hb
          · rename_i y1 y2 y3 g2
            cases hb
            obtain ⟨f, v, i1, k1⟩ := M.bind_inv g1
            obtain ⟨f', v', i2, k2⟩ := M.bind_inv g2
            rw [i1] at i2
            cases i2
            obtain ⟨rfl, hE⟩ := afterTransform_eqX hab hid k1 k2
            exact ⟨rfl, hE⟩
          · cases hb
        · cases h
      · obtain ⟨f1, l1, e1⟩ := analyzeImage_bad hs.wf hg hi hall h1 liveA
        obtain ⟨f2, l2, e2⟩ := analyzeImage_bad hs.wf hgb hib (by rw [wid, hei]; exact hall) h2 liveB
        rw [e1] at h
        rw [e2] at hb
        cases h
        cases hb
        refine ⟨rfl, by simp [hid], hab.x, ?_⟩
        rw [hab.eq]

theorem run_eqX {s : Sys} (hs : Build s) {cs : List Call} {a b a' : Analysis} (hg : Good s a) (hgb : Good s b) (hab : EqX a b)
    (hl : ∀ c ∈ cs, Legal a c) {os : List Obs} (h : run s a cs = some (os, a')) :
    ∃ os' b', run s b cs = some (os', b') ∧ List.Forall₂ SameHeights os os' := by
  induction cs generalizing a b os with
  | nil =>
    simp only [run, Option.some.injEq, Prod.mk.injEq] at h
    obtain ⟨rfl, rfl⟩ := h
    exact ⟨[], b, rfl, .nil⟩
  | cons c cs ih =>
    unfold run at h ⊢
    simp only [Option.bind_eq_bind, Option.bind_eq_some_iff] at h
    obtain ⟨⟨o, a1⟩, e1, ⟨os', a2⟩, e2, e3⟩ := h
    simp only [Option.pure_def, Option.some.injEq, Prod.mk.injEq] at e3
    obtain ⟨rfl, rfl⟩ := e3
    obtain ⟨o', b1, f1, f2, f3⟩ := step_eqX hs hg hgb hab (hl c (by simp)) e1
    have hk := step_ok hs hg (hl c (by simp)) e1
    have hkb := step_ok hs hgb (hab.legal (hl c (by simp))) f1
    obtain ⟨os'', b2, f4, f5⟩ := ih (hk.good hg).1 (hkb.good hgb).1 f3 (fun c' hc' => hk.legal (hl c' (by simp [hc']))) e2
    exact ⟨o' :: os'', b2, by rw [f1]; simp [f4], .cons f2 f5⟩

theorem SameHeights.refl (o : Obs) : SameHeights o o := by
  cases o with
  | analyzed e => exact rfl
  | results => exact ⟨rfl, rfl, rfl, rfl⟩

/-- A frame refused for lack of memory changes nothing but coefficients and scores of widths. -/
theorem step_nomem {s : Sys} (hs : Build s) {a a' : Analysis} (hg : Good s a) {c : Call} (hl : Legal a c)
    (h : step s a c = some (.analyzed RDENOMEM, a')) : EqX a a' := by
  have hk := step_ok hs hg hl h
  generalize ho : Obs.analyzed RDENOMEM = o at hk
  cases hk with
  | results => cases ho
  | analyze image e _ _ hk =>
    injection ho with ho
    subst ho
    generalize he : RDENOMEM = e at hk
    cases hk with
    | param => simp [RDENOMEM, RDEPARAM] at he
    | inval => simp [RDENOMEM, RDEINVAL] at he
    | frame im fb pl f w' _ _ _ _ hfb _ _ _ hx =>
      cases hx with
      | ok => simp [RDENOMEM, RDEOK] at he
      | nomemX h _ => exact ⟨by rw [hfb]; rfl, rfl, rfl⟩
      | nomemY h _ => exact ⟨by rw [hfb]; rfl, by rw [addX, updBuf_id], rfl⟩

end Verif
