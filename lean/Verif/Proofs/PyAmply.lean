import Verif.Proofs.PyResults

/-! Which statements of a Python program leave as much memory as there was. -/

namespace Verif

open Spec Props

variable {s : Sys} {io : Io} {film : Films} {fuel : ℕ} {kn : Known} {st : PyState} {base w w1 w' : World} {op : PyOp} {L S : List ℕ}

/-- There is memory afterwards. -/
def Calm {α : Type} (m : M α) (w : World) : Prop := ∀ a w', m w = some (a, w') → Plenty w'

theorem Calm.pure {α : Type} {a : α} (h : Plenty w) : Calm (Pure.pure a : M α) w := by
  intro a' w' e
  cases e
  exact h

theorem Calm.bind {α β : Type} {f : M α} {g : α → M β} {a : α} (h : f w = some (a, w1)) (hg : Calm (g a) w1) : Calm (f >>= g) w := by
  intro b w' e
  rw [M.bind_some h] at e
  exact hg b w' e

theorem calm_dimensions {wd ht n : ℤ} (h : Holds s base st w) (hpl : Plenty w) : Calm (pyStep s io fuel st (.dimensions wd ht n)) w := by
  unfold pyStep
  obtain ⟨_, w1, _, _, e1, ow1, rfl, h6⟩ := Act.run (Act.malloc (U := False) (F := False) (L := []) (S := [])) (Own.init h.own.wf (plenty_false hpl))
  refine Calm.bind e1 ?_
  split <;> exact Calm.pure (plenty_own ow1)

theorem calm_image {fn : List UInt8} {ft rn : Option (List UInt8)} {j : ℕ} (hfilm : film.Shown s io) (hset : (film fn ft rn).isSome = true) (h : Holds s base st w)
    (hpl : Plenty w) : Calm (pyStep s io fuel st (.image fn ft rn (some j))) w := by
  show Calm (pyImage s io st fn ft rn (some j)) w
  unfold pyImage
  simp only
  cases hj : st.bufs[j]? with
  | none => exact Calm.pure hpl
  | some b =>
    simp only
    obtain ⟨f, hfl⟩ := Option.isSome_iff_exists.mp hset
    obtain ⟨r, Ok, G, hx⟩ := (hfilm fn ft rn f hfl).reveals.fount
    rw [← pyOpen_opening] at hx
    obtain ⟨o, w1, _, _, e1, ow1, _⟩ := (hx.opening [] []).run (Own.init h.own.wf (plenty_false hpl))
    refine Calm.bind e1 ?_
    cases o.image with
    | none => exact Calm.pure (plenty_own ow1)
    | some i => exact Calm.pure (plenty_own ow1)

theorem calm_readFrame {k j : ℕ} (hset : settled s film kn (.readFrame k j) = true) (h : Holds s base st w) (hpl : Plenty w) (ag : Agrees s kn st) :
    Calm (pyStep s io fuel st (.readFrame k j)) w := by
  show Calm (pyReadFrame st k j) w
  unfold pyReadFrame
  have hkn : ∃ f W H x, kn.images[k]? = some (some f) ∧ kn.bufs[j]? = some (.full W H x) ∧ W * H = f.width * f.height := by
    simp only [settled] at hset
    split at hset
    · next f W H x h1 h2 => exact ⟨f, W, H, x, h1, h2, of_decide_eq_true hset⟩
    · cases hset
  obtain ⟨f, W, H, y, h1, h2, h3⟩ := hkn
  obtain ⟨oi, hk, hri⟩ := forall₂_get ag.images h1
  obtain ⟨i, x, r, Ok, G, rfl, hb, hi, hG⟩ := hri f rfl
  obtain ⟨b, hj, p, hdata, hpar, hsize, hl, _⟩ := forall₂_get ag.bufs h2
  rw [hk, hj]
  simp only
  have hptr : b.pointer = some p := by unfold PyBuf.pointer; rw [hpar]; exact hdata
  have ow := ample (h.pickImage hk) hpl
  have hp : (imgBlocks (some i) ++ st.offImage k).Perm (held p.id i x ((st.bufs.eraseIdx j).flatMap bufBlocks ++ ((st.images.eraseIdx k).flatMap imgBlocks ++
      st.analyses.flatMap anaBlocks))) := by
    have e1 : imgBlocks (some i) = i.block :: x.blocks := by simp only [imgBlocks, hi.ctx]
    have e2 : bufBlocks b = [p.id] := by simp [bufBlocks, hdata]
    have h5 := flatMap_pick bufBlocks hj
    rw [e2] at h5
    rw [e1]
    unfold PyState.offImage held
    refine ((h5.append_right _).append_left _).trans ?_
    perm_count
  have e3 : imgFiles (some i) = x.files := by simp only [imgFiles, hi.ctx]
  rw [e3] at ow
  obtain ⟨_, w1, _, _, e1, ow1, x', data, rfl, hd, hi', _, _⟩ := (hb.frame_act (L := (st.bufs.eraseIdx j).flatMap bufBlocks ++
    ((st.images.eraseIdx k).flatMap imgBlocks ++ st.analyses.flatMap anaBlocks)) (S := (st.images.eraseIdx k).flatMap imgFiles) hi hG (buf := p)
    (by rw [hl, h3])).run (ow.perm hp (List.Perm.refl _))
  rw [hptr]
  refine Calm.bind e1 ?_
  simp only
  split_ifs <;> exact Calm.pure (plenty_own ow1)

theorem calm_analysis {wd ht : ℤ} {m : Option String} {d : PyDict} (hs : Build s) (hset : settled s film kn (.analysis wd ht m d) = true) (h : Holds s base st w)
    (hpl : Plenty w) : Calm (pyStep s io fuel st (.analysis wd ht m d)) w := by
  unfold pyStep
  simp only
  by_cases hd : d.unknown = true
  · have e : pyAnalysis s (pyMethod m) wd ht d w = some (.raised none, w) := by
      unfold pyAnalysis
      rw [M.bind_some ((C51_python_partial (c := s.cfg) (w := w)).1 hd)]
      rfl
    exact Calm.bind e (Calm.pure hpl)
  · have hd' : d.unknown = false := by simpa using hd
    have hmod : moderate s wd ht := by simpa [settled, hd'] using hset
    have hmod' := hmod
    obtain ⟨h1, h2, h3, h4, _⟩ := hmod'
    obtain ⟨W, rfl⟩ := Int.eq_ofNat_of_zero_le h1
    obtain ⟨H, rfl⟩ := Int.eq_ofNat_of_zero_le h2
    obtain ⟨_, w1, _, _, e1, ow1, _, h5⟩ := (pyAnalysis_act (L := []) (S := []) (m := pyMethod m) hs (pyMethod_valid m) hd' (W := W) (H := H) (by exact_mod_cast h3)
      (by exact_mod_cast h4) (moderate_lines hmod)).run (Own.init h.own.wf (plenty_false hpl))
    refine Calm.bind e1 ?_
    rcases h5 with ⟨h5, rfl, _⟩ | ⟨h5, a, rfl, ha, _⟩
    · exact Calm.pure (plenty_own ow1)
    · exact Calm.pure (plenty_own ow1)

theorem settled_analysis {k : ℕ} (h : (match kn.analyses[k]? with
    | some (some _) => true
    | _ => false) = true) : ∃ u, kn.analyses[k]? = some (some u) := by
  split at h
  · next u hu => exact ⟨u, hu⟩
  · cases h

theorem calm_samples {k : ℕ} {oa : Option Analysis} {image : Option (List Fl)} (hs : Build s) (h : Holds s base st w) (hpl : Plenty w)
    (ag : Agrees s kn st) (hset : ∃ u, kn.analyses[k]? = some (some u)) (hk : st.analyses[k]? = some oa)
    (hf : ∀ a im, oa = some a → image = some im → a.width * a.height ≤ im.length) :
    Calm (do
      let (r, a) ← pyAnalyze s oa image
      return ((r.to (fun _ => .unit) : Raises PyVal), { st with analyses := st.analyses.set k a })) w := by
  obtain ⟨u, hka⟩ := hset
  obtain ⟨_, hk', hr⟩ := forall₂_get ag.analyses hka
  rw [hk] at hk'
  cases hk'
  obtain ⟨a, ev, rfl, ha, hno, hops, hpw, hsc⟩ := hr u rfl
  cases image with
  | none => exact Calm.bind (a := (.raised (some RDEPARAM), some a)) (w1 := w) rfl (Calm.pure hpl)
  | some f =>
    have ow := ample (h.pickAnalysis hk) hpl
    simp only [anaBlocks] at ow
    have hlen := hf a f rfl rfl
    rw [ha.width, ha.height] at hlen
    obtain ⟨_, w1, _, _, e1, ow1, _⟩ := (pyAnalyze_act (L1 := a.blocks ++ st.offAnalysis k) hs ha
      (fun b hb => List.mem_append_left _ hb) hlen hsc).run ow
    exact Calm.bind e1 (Calm.pure (plenty_own ow1))

theorem calm_results {k : ℕ} (hs : Build s) (hset : ∃ u, kn.analyses[k]? = some (some u)) (h : Holds s base st w) (hpl : Plenty w) (ag : Agrees s kn st) :
    Calm (pyStep s io fuel st (.results k)) w := by
  obtain ⟨u, h1⟩ := hset
  obtain ⟨oa, hk, hr⟩ := forall₂_get ag.analyses h1
  unfold pyStep
  simp only [hk]
  obtain ⟨a, ev, rfl, ha, hno, hops, hpw, hsc⟩ := hr u rfl
  have ow := ample (h.pickAnalysis hk) hpl
  simp only [anaBlocks] at ow
  obtain ⟨_, w2, _, _, e2, ow2, _⟩ := (pyResults_act (L := a.blocks ++ st.offAnalysis k) hs (pyMethod_valid u.method)
    (pyEff_valid hs) ha (fun b hb => List.mem_append_left _ hb) hsc).run ow
  exact Calm.bind e2 (Calm.pure (plenty_own ow2))

theorem calm_item {j : ℕ} {i : PyIndex} (h : Holds s base st w) (hpl : Plenty w) : Calm (pyStep s io fuel st (.item j i)) w := by
  unfold pyStep
  simp only
  cases hj : st.bufs[j]? with
  | none => exact Calm.pure hpl
  | some b =>
    simp only
    have key : Calm (pyItem b i) w := by
      unfold pyItem
      cases b.size with
      | none => exact Calm.pure hpl
      | some z =>
        obtain ⟨wd, ht, n⟩ := z
        simp only
        cases pyIndex ⟨0, wd, ht, n⟩ i with
        | none => exact Calm.pure hpl
        | some q =>
          refine Calm.bind (pySamples_run h hj) ?_
          cases b.data with
          | none => exact Calm.pure hpl
          | some d =>
            simp only [Option.map_some]
            split_ifs
            · cases d.data[q.toNat]? with
              | none => intro _ _ e; cases e
              | some v => exact Calm.pure hpl
            · intro _ _ e; cases e
    intro a w' e
    cases h1 : pyItem b i w with
    | none => rw [M.bind_none h1] at e; cases e
    | some v =>
      rw [M.bind_some h1] at e
      cases e
      exact key _ _ h1

theorem calm_step (hs : Build s) (hfilm : film.Shown s io) (hset : settled s film kn op = true) (h : Holds s base st w) (hpl : Plenty w)
    (hf : fair s io fuel st op w = true) (ag : Agrees s kn st) : Calm (pyStep s io fuel st op) w := by
  cases op with
  | buffer => exact Calm.pure hpl
  | dimensions => exact calm_dimensions h hpl
  | item => exact calm_item h hpl
  | image fn ft rn buf =>
    cases buf with
    | none => cases hset
    | some j => exact calm_image hfilm hset h hpl
  | readFrame => exact calm_readFrame hset h hpl ag
  | analysis => exact calm_analysis hs hset h hpl
  | analyze k j =>
    unfold pyStep
    simp only
    cases hk : st.analyses[k]? with
    | none => exact Calm.pure hpl
    | some oa =>
      cases hj : st.bufs[j]? with
      | none => exact Calm.pure hpl
      | some b =>
        simp only
        refine Calm.bind (pySamples_run h hj) (calm_samples hs h hpl ag (settled_analysis hset) hk ?_)
        rintro a im rfl him
        obtain ⟨p, hp, rfl⟩ := Option.map_eq_some_iff.mp him
        simpa [fair, hk, hj, hp] using hf
  | analyzeList k l =>
    unfold pyStep
    simp only
    cases hk : st.analyses[k]? with
    | none => exact Calm.pure hpl
    | some oa =>
      simp only
      refine calm_samples (image := some (l.map binary32.conv)) hs h hpl ag (settled_analysis hset) hk ?_
      rintro a im rfl him
      cases him
      simpa [fair, hk] using hf
  | results => exact calm_results hs (settled_analysis hset) h hpl ag
  | _ => cases hset

theorem amply_of (hio : io.Contract s.cfg) (hs : Build s) (hfilm : film.Shown s io) (ops : List PyOp) : ∀ {kn : Known} {st st' : PyState} {w w' : World}
    {obs : List (Raises PyVal)}, Holds s base st w → Agrees s kn st → fairly s io fuel st ops w = true → Plenty w →
    pyRun s io fuel st ops w = some ((obs, st'), w') → steadily s film kn ops obs = true → Amply s io fuel st ops w := by
  induction ops with
  | nil => exact fun _ _ _ _ _ _ => trivial
  | cons op ops ih =>
    intro kn st st' w w' obs h ag hf hpl hrun hst
    simp only [fairly, Bool.and_eq_true] at hf
    obtain ⟨hf1, hf2⟩ := hf
    obtain ⟨o, st1, w1, e1, h1⟩ := go hio hs h hf1
    rw [e1] at hf2
    refine ⟨hpl, ?_⟩
    intro o' st1' w1' e1'
    rw [e1] at e1'
    cases e1'
    cases ops with
    | nil => trivial
    | cons op' ops =>
      obtain ⟨ag1, _⟩ := right_step (film := film) hs hfilm h hpl hf1 ag o st1 w1 e1
      unfold pyRun at hrun
      rw [M.bind_some e1] at hrun
      simp only at hrun
      cases h2 : pyRun s io fuel st1 (op' :: ops) w1 with
      | none => rw [M.bind_none h2] at hrun; cases hrun
      | some v =>
        obtain ⟨⟨obs2, st2⟩, w2⟩ := v
        rw [M.bind_some h2] at hrun
        cases hrun
        simp only [steadily, List.isEmpty_cons, Bool.false_or, Bool.and_eq_true] at hst
        exact ih h1 ag1 hf2 (calm_step hs hfilm hst.1 h hpl hf1 ag _ _ e1) h2 (by simpa [steadily] using hst.2)

end Verif
