import Verif.Spec.PyResults
import Verif.Proofs.Numpy
import Verif.Props.Numpy
import Verif.Props.Library

/-! What is known of the objects of a Python program is true. -/

namespace Verif

open Spec Props

variable {s : Sys} {io : Io} {film : Films} {fuel : ℕ} {kn : Known} {st : PyState} {base w w1 w' : World} {op : PyOp} {L S : List ℕ}

/-! ## Lists -/

section
variable {α β : Type} {R : α → β → Prop} {l : List α} {l' : List β} {a : α} {b : β} {k : ℕ}

theorem forall₂_set (h : List.Forall₂ R l l') (hab : R a b) : List.Forall₂ R (l.set k a) (l'.set k b) := by
  induction h generalizing k with
  | nil => exact .nil
  | cons h1 h2 ih =>
    cases k with
    | zero => exact .cons hab h2
    | succ k => exact .cons h1 ih

theorem forall₂_forget (h : List.Forall₂ R l l') (ha : ∀ b, R a b) : List.Forall₂ R (l.set k a) l' := by
  induction h generalizing k with
  | nil => exact .nil
  | cons h1 h2 ih =>
    cases k with
    | zero => exact .cons (ha _) h2
    | succ k => exact .cons h1 ih

theorem forall₂_push (h : List.Forall₂ R l l') (hab : R a b) : List.Forall₂ R (l ++ [a]) (l' ++ [b]) := by
  induction h with
  | nil => exact .cons hab .nil
  | cons h1 h2 ih => exact .cons h1 ih

theorem forall₂_get (h : List.Forall₂ R l l') (hk : l[k]? = some a) : ∃ b, l'[k]? = some b ∧ R a b := by
  induction h generalizing k with
  | nil => cases hk
  | cons h1 h2 ih =>
    cases k with
    | zero => cases hk; exact ⟨_, rfl, h1⟩
    | succ k => exact ih hk

end

/-! ## The invariant -/

/-- What is known of a buffer is true. -/
def RBuf (x : Slot) (b : PyBuf) : Prop :=
  match x with
  | .unknown => True
  | .empty => b.data = none ∧ b.param = none
  | .full W H y => ∃ p, b.data = some p ∧ b.param = none ∧ b.size = some ((W : ℤ), (H : ℤ), 1) ∧ p.data.length = W * H ∧ ∀ l, y = some l → p.data = l

/-- What is known of an image is true. -/
def RImg (s : Sys) (x : Option Film) (i : Option RDImage) : Prop :=
  ∀ f, x = some f → ∃ i' y r Ok G, i = some i' ∧ Feed s r f.width f.height Ok False G ∧ Handle s r Ok f.width f.height i' y ∧ G y f.frames RDEOK

/-- What is known of an analysis is true. -/
def RAna (s : Sys) (x : Option Used) (oa : Option Analysis) : Prop :=
  ∀ u, x = some u → ∃ a ev, oa = some a ∧ InLoop s (pyMethod u.method) (pyEff s.cfg u.dict) u.width u.height a.blocks ev a ∧ NoOom ev ∧
    (analysed ev).map (fun x => x.1.op) = u.frames.map (fun f => Op.analyze (some f)) ∧ (∀ x ∈ analysed ev, Plenty x.1.world) ∧
    (LinesTooBig s.cfg u.width u.height → False)

structure Agrees (s : Sys) (kn : Known) (st : PyState) : Prop where
  bufs : List.Forall₂ RBuf kn.bufs st.bufs
  images : List.Forall₂ (RImg s) kn.images st.images
  analyses : List.Forall₂ (RAna s) kn.analyses st.analyses

theorem RImg.none {i : Option RDImage} : RImg s none i := fun _ h => by cases h

theorem RAna.none {a : Option Analysis} : RAna s none a := fun _ h => by cases h

theorem RBuf.unknown {b : PyBuf} : RBuf .unknown b := trivial

theorem ample (h : Own True base L S w) (hpl : Plenty w) : Own False base L S w := { h with sched := plenty_false hpl }

theorem moderate_lines {W H : ℕ} (h : moderate s W H) : LinesTooBig s.cfg W H → False := by
  obtain ⟨_, _, _, _, h1, h2⟩ := h
  have h1' : W * s.cfg.szInter ≤ s.cfg.sizeMax := by exact_mod_cast h1
  have h2' : H * s.cfg.szInter ≤ s.cfg.sizeMax := by exact_mod_cast h2
  rintro (h | h) <;> omega

theorem moderate_huge {W H : ℕ} (h : moderate s W H) : ¬ HugeScores s W H := by
  rintro ⟨n, rfl | rfl, h'⟩
  · exact moderate_lines h (Or.inl h')
  · exact moderate_lines h (Or.inr h')

theorem stands_eff (hs : Build s) {d : PyDict} {p : Option Params} (h : Stands s.cfg d p) : p = pyEff s.cfg d := by
  obtain ⟨h1, h2, h3⟩ := h
  have hw : (⟨[], [], 0, fun _ => true⟩ : World).WF := by constructor <;> simp
  obtain ⟨q, w1, e1, h4⟩ := pyParameters_means h1 h2 hw (fun _ => rfl)
  obtain ⟨q', w2, e2, h5, _⟩ := pyParameters_run hs h1 hw (fun _ => rfl)
  rw [e1] at e2
  obtain ⟨h6, _⟩ := Prod.mk.inj (Option.some.inj e2)
  cases h6
  rw [← h5]
  exact pyMeans_unique h3 h4

theorem pyOpen_opening {fn : List UInt8} {ft rn : Option (List UInt8)} : pyOpen s io fn ft rn true = pyOpening s io fn ft rn := by
  unfold pyOpen pyOpening pyText
  rcases rn with _ | _ | ⟨b, r⟩ <;> rcases ft with _ | _ | ⟨b', t⟩ <;> simp

theorem pyText_opening {fn : List UInt8} {ft : Option (List UInt8)} : resdetOpenImage s io (some fn) (pyText ft) true true true = pyOpening s io fn ft none := by
  rw [← pyOpen_opening]
  rfl

/-! ## One statement -/

/-- Whatever the statement gives is right. -/
def Right (s : Sys) (film : Films) (fuel : ℕ) (kn : Known) (op : PyOp) (m : M (Raises PyVal × PyState)) (w : World) : Prop :=
  ∀ o st' w', m w = some ((o, st'), w') → Agrees s (learn s film kn op o) st' ∧ expects s film fuel kn op o

theorem Right.pure {o : Raises PyVal} (h1 : Agrees s (learn s film kn op o) st) (h2 : expects s film fuel kn op o) :
    Right s film fuel kn op (Pure.pure (o, st)) w := by
  intro o' st' w' h
  cases h
  exact ⟨h1, h2⟩

theorem Right.any {α : Type} {f : M α} {g : α → M (Raises PyVal × PyState)} (h : ∀ a w1, f w = some (a, w1) → Right s film fuel kn op (g a) w1) :
    Right s film fuel kn op (f >>= g) w := by
  intro o st' w' h1
  cases h2 : f w with
  | none => rw [M.bind_none h2] at h1; cases h1
  | some v =>
    obtain ⟨a, w1⟩ := v
    rw [M.bind_some h2] at h1
    exact h a w1 h2 o st' w' h1

theorem Right.bind {α : Type} {f : M α} {g : α → M (Raises PyVal × PyState)} {a : α} (h : f w = some (a, w1)) (hg : Right s film fuel kn op (g a) w1) :
    Right s film fuel kn op (f >>= g) w :=
  Right.any fun a' w1' h' => by rw [h] at h'; cases h'; exact hg

theorem right_dimensions {wd ht n : ℤ} (h : Holds s base st w) (hpl : Plenty w) (hf : fair s io fuel st (.dimensions wd ht n) w = true) (ag : Agrees s kn st) :
    Right s film fuel kn (.dimensions wd ht n) (pyStep s io fuel st (.dimensions wd ht n)) w := by
  simp only [fair, decide_eq_true_eq] at hf
  obtain ⟨h1, h2, h3, h4, h5⟩ := hf
  unfold pyStep
  obtain ⟨_, w1, _, _, e1, _, rfl, h6⟩ := Act.run (Act.malloc (U := False) (F := False) (L := []) (S := [])) (Own.init h.own.wf (plenty_false hpl))
  rcases h6 with ⟨rfl, _, h6⟩ | ⟨b, rfl, _⟩
  · exact h6.elim
  · refine Right.bind e1 (Right.pure ?_ rfl)
    refine { ag with bufs := forall₂_push ag.bufs ?_ }
    by_cases hn : n = 1
    · subst hn
      rw [if_pos rfl]
      obtain ⟨wd, rfl⟩ := Int.eq_ofNat_of_zero_le h1
      obtain ⟨ht, rfl⟩ := Int.eq_ofNat_of_zero_le h2
      have h5' : wd * ht * 4 ≤ s.cfg.sizeMax := by exact_mod_cast h5
      have e : pySize s.cfg ((wd : ℤ) * ht * 4) = wd * ht * 4 := by
        have := pySize_nat (c := s.cfg) h5'
        rw [← this]; push_cast; rfl
      refine ⟨_, rfl, rfl, rfl, ?_, fun _ h => by cases h⟩
      simp only [List.length_replicate, Int.toNat_natCast]
      rw [e]
      omega
    · rw [if_neg hn]
      exact RBuf.unknown

theorem right_image {fn : List UInt8} {ft rn : Option (List UInt8)} {buf : Option ℕ} (hfilm : film.Shown s io) (h : Holds s base st w) (hpl : Plenty w)
    (ag : Agrees s kn st) : Right s film fuel kn (.image fn ft rn buf) (pyStep s io fuel st (.image fn ft rn buf)) w := by
  show Right s film fuel kn (.image fn ft rn buf) (pyImage s io st fn ft rn buf) w
  unfold pyImage
  cases buf with
  | none =>
    refine Right.any fun o w1 _ => ?_
    cases o.image with
    | none => exact Right.pure ag trivial
    | some i => exact Right.pure { ag with images := forall₂_push ag.images RImg.none } trivial
  | some j =>
    simp only
    have hlen := ag.bufs.length_eq
    cases hj : st.bufs[j]? with
    | none =>
      refine Right.pure { ag with bufs := forall₂_forget ag.bufs fun _ => trivial } ?_
      intro f _ hj'
      rw [List.getElem?_eq_none_iff] at hj
      omega
    | some b =>
      simp only
      cases hfl : film fn ft rn with
      | none =>
        refine Right.any fun o w1 _ => ?_
        cases o.image with
        | none => exact Right.pure { ag with bufs := forall₂_set ag.bufs trivial } (fun f h => by rw [hfl] at h; cases h)
        | some i =>
          refine Right.pure ⟨?_, ?_, ag.analyses⟩ (fun f h => by rw [hfl] at h; cases h)
          · simp only [learn, hfl]
            refine forall₂_set ag.bufs ?_
            generalize kn.bufs[j]? = x
            rcases x with _ | _ | _ | _ <;> exact RBuf.unknown
          · simp only [learn, hfl]
            exact forall₂_push ag.images RImg.none
      | some f =>
        obtain ⟨r, Ok, G, hx⟩ := (hfilm fn ft rn f hfl).reveals.fount
        rw [← pyOpen_opening] at hx
        obtain ⟨o, w1, _, _, e1, _, h1⟩ := (hx.opening [] []).run (Own.init h.own.wf (plenty_false hpl))
        rcases h1 with ⟨i, x, bid, ho, hG, hW, hH, hbuf, _, _⟩ | ⟨_, h1, _⟩
        · refine Right.bind e1 ?_
          simp only [ho.image]
          have hi := ho.handle
          rw [hW, hH] at hi
          refine Right.pure ⟨?_, ?_, ag.analyses⟩ (fun _ _ _ => rfl)
          · simp only [learn, hfl]
            refine forall₂_set ag.bufs ?_
            cases hkj : kn.bufs[j]? with
            | none => exact RBuf.unknown
            | some sl =>
              cases sl with
              | unknown => exact RBuf.unknown
              | full => exact RBuf.unknown
              | empty =>
                obtain ⟨b', hb', hr⟩ := forall₂_get ag.bufs hkj
                rw [hj] at hb'
                cases hb'
                exact ⟨_, hbuf, hr.2, by rw [hW, hH], by simp, fun _ h => by cases h⟩
          · simp only [learn, hfl]
            refine forall₂_push ag.images ?_
            rintro _ hf
            cases hf
            exact ⟨i, x, r, Ok, G, rfl, hx.feed, hi, hG⟩
        · exact h1.elim

theorem fill_unknown {k j : ℕ} (h : ¬ ∃ f W H x, kn.images[k]? = some (some f) ∧ kn.bufs[j]? = some (.full W H x) ∧ W * H = f.width * f.height) :
    kn.fill k j = { kn with images := kn.images.set k none, bufs := kn.bufs.set j .unknown } := by
  unfold Known.fill
  split
  · next hi hb =>
    rw [if_neg]
    intro he
    exact h ⟨_, _, _, _, hi, hb, he⟩
  · rfl

theorem right_readFrame {k j : ℕ} (h : Holds s base st w) (hpl : Plenty w) (ag : Agrees s kn st) :
    Right s film fuel kn (.readFrame k j) (pyStep s io fuel st (.readFrame k j)) w := by
  show Right s film fuel kn (.readFrame k j) (pyReadFrame st k j) w
  unfold pyReadFrame
  by_cases hkn : ∃ f W H x, kn.images[k]? = some (some f) ∧ kn.bufs[j]? = some (.full W H x) ∧ W * H = f.width * f.height
  · obtain ⟨f, W, H, y, h1, h2, h3⟩ := hkn
    obtain ⟨oi, hk, hri⟩ := forall₂_get ag.images h1
    obtain ⟨i, x, r, Ok, G, rfl, hb, hi, hG⟩ := hri f rfl
    obtain ⟨b, hj, p, hdata, hpar, hsize, hl, _⟩ := forall₂_get ag.bufs h2
    rw [hk, hj]
    simp only
    have hptr : b.pointer = some p := by unfold PyBuf.pointer; rw [hpar]; exact hdata
    have ow := ample (h.pickImage hk) hpl
    have hp : (imgBlocks (some i) ++ st.offImage k).Perm (held p.id i x ((st.bufs.eraseIdx j).flatMap bufBlocks ++ ((st.images.eraseIdx k).flatMap imgBlocks ++
        st.analyses.flatMap anaBlocks))) := by
      have e1 : imgBlocks (some i) = i.block :: x.blocks := by simp only [imgBlocks, hi.ctx]
      have e2 : bufBlocks b = [p.id] := by simp [bufBlocks, hdata]
      have h5 := flatMap_pick bufBlocks hj
      rw [e2] at h5
      rw [e1]
      unfold PyState.offImage held
      refine ((h5.append_right _).append_left _).trans ?_
      perm_count
    have e3 : imgFiles (some i) = x.files := by simp only [imgFiles, hi.ctx]
    rw [e3] at ow
    obtain ⟨_, w1, _, _, e1, _, x', data, rfl, hd, hi', _, _⟩ := (hb.frame_act (L := (st.bufs.eraseIdx j).flatMap bufBlocks ++
      ((st.images.eraseIdx k).flatMap imgBlocks ++ st.analyses.flatMap anaBlocks)) (S := (st.images.eraseIdx k).flatMap imgFiles) hi hG (buf := p)
      (by rw [hl, h3])).run (ow.perm hp (List.Perm.refl _))
    rw [hptr]
    refine Right.bind e1 ?_
    simp only [hpar, ite_self]
    rw [if_neg (show ¬ RDEOK ≠ 0 by decide)]
    have hexp : expects s film fuel kn (.readFrame k j) (.ok (.bool (!f.frames.isEmpty))) := by
      intro f' W' H' x' g1 _ _
      rw [h1] at g1
      cases g1
      rfl
    obtain ⟨fw, fh, frames⟩ := f
    cases frames with
    | nil =>
      refine Right.pure ⟨?_, ?_, ag.analyses⟩ hexp
      · exact forall₂_set ag.bufs trivial
      · exact forall₂_set ag.images RImg.none
    | cons f fs =>
      obtain ⟨rfl, h6, h7⟩ := hd f fs rfl
      have hfill : learn s film kn (.readFrame k j) (.ok (.bool (!(data :: fs).isEmpty))) =
          { kn with images := kn.images.set k (some ⟨fw, fh, fs⟩), bufs := kn.bufs.set j (.full W H (some data)) } := by
        simp only [List.isEmpty_cons, Bool.not_false, learn, Known.fill, h1, h2]
        rw [if_pos h3]
      refine Right.pure ?_ hexp
      rw [hfill]
      refine ⟨forall₂_set ag.bufs ?_, forall₂_set ag.images ?_, ag.analyses⟩
      · exact ⟨⟨p.id, data⟩, rfl, rfl, hsize, by rw [h6, h3], by rintro _ h; cases h; rfl⟩
      · rintro _ hf
        cases hf
        exact ⟨_, x', r, Ok, G, rfl, hb, hi', h7⟩
  · have hexp : ∀ o, expects s film fuel kn (.readFrame k j) o := fun o f W H x g1 g2 g3 => absurd ⟨f, W, H, x, g1, g2, g3⟩ hkn
    have hlearn : ∀ o, learn s film kn (.readFrame k j) o = { kn with images := kn.images.set k none, bufs := kn.bufs.set j .unknown } := by
      intro o
      rcases o with ⟨_ | ⟨_ | _⟩ | _ | _⟩ | _ <;> first | rfl | exact fill_unknown hkn
    have idle : ∀ (o : Raises PyVal) (w : World), Right s film fuel kn (.readFrame k j) (Pure.pure (o, st)) w := by
      intro o w
      refine Right.pure ?_ (hexp _)
      rw [hlearn]
      exact ⟨forall₂_forget ag.bufs fun _ => trivial, forall₂_forget ag.images fun _ => RImg.none, ag.analyses⟩
    cases hk : st.images[k]? with
    | none => exact idle _ _
    | some oi =>
      cases hj : st.bufs[j]? with
      | none => exact idle _ _
      | some b =>
        simp only
        refine Right.any fun v w1 _ => ?_
        obtain ⟨ret, e, p, i⟩ := v
        simp only
        have fin : ∀ (b' : PyBuf) (o : Raises PyVal), Right s film fuel kn (.readFrame k j) (Pure.pure (o, { st with images := st.images.set k i, bufs := st.bufs.set j b' })) w1 := by
          intro b' o
          refine Right.pure ?_ (hexp _)
          rw [hlearn]
          exact ⟨forall₂_set ag.bufs trivial, forall₂_set ag.images RImg.none, ag.analyses⟩
        split_ifs
        · exact fin _ _
        · exact fin _ _


theorem raising_answer {e : RDError} : (Raises.to (if e = RDEOK then .ok () else .raised (some e) : Raises Unit) (fun _ => .unit)) = raising e .unit := by
  unfold raising
  split_ifs <;> rfl

theorem right_analysis {wd ht : ℤ} {m : Option String} {d : PyDict} (hs : Build s) (h : Holds s base st w) (hpl : Plenty w) (ag : Agrees s kn st) :
    Right s film fuel kn (.analysis wd ht m d) (pyStep s io fuel st (.analysis wd ht m d)) w := by
  unfold pyStep
  simp only
  by_cases hd : d.unknown = true
  · have e : pyAnalysis s (pyMethod m) wd ht d w = some (.raised none, w) := by
      unfold pyAnalysis
      rw [M.bind_some ((C51_python_partial (c := s.cfg) (w := w)).1 hd)]
      rfl
    refine Right.bind e (Right.pure ag ⟨fun _ => rfl, fun h => ?_⟩)
    rw [hd] at h
    cases h
  · have hd' : d.unknown = false := by simpa using hd
    by_cases hmod : moderate s wd ht
    · have hmod' := hmod
      obtain ⟨h1, h2, h3, h4, _⟩ := hmod'
      obtain ⟨W, rfl⟩ := Int.eq_ofNat_of_zero_le h1
      obtain ⟨H, rfl⟩ := Int.eq_ofNat_of_zero_le h2
      obtain ⟨_, w1, _, _, e1, _, _, h5⟩ := (pyAnalysis_act (L := []) (S := []) (m := pyMethod m) hs (pyMethod_valid m) hd' (W := W) (H := H) (by exact_mod_cast h3)
        (by exact_mod_cast h4) (moderate_lines hmod)).run (Own.init h.own.wf (plenty_false hpl))
      refine Right.bind e1 ?_
      rcases h5 with ⟨h5, rfl, _⟩ | ⟨h5, a, rfl, ha, _⟩
      · refine Right.pure ag ⟨fun h => absurd h hd, fun _ _ => ?_⟩
        simp only [Int.toNat_natCast]
        unfold raising
        rw [if_neg h5]
      · refine Right.pure { ag with analyses := forall₂_push ag.analyses ?_ } ⟨fun h => absurd h hd, fun _ _ => ?_⟩
        · rw [if_pos hmod]
          rintro _ hu
          cases hu
          simp only [Int.toNat_natCast]
          refine ⟨a, [], rfl, ⟨ha.reach, ha.good, ha.width, ha.height, fun _ h => h⟩, ?_, rfl, ?_, moderate_lines hmod⟩ <;> · intro x hx; cases hx
        · simp only [Int.toNat_natCast]
          unfold raising
          rw [if_pos h5]
    · refine Right.any fun r w1 _ => ?_
      cases r with
      | raised e => exact Right.pure ag ⟨fun h => absurd h hd, fun _ h => absurd h hmod⟩
      | ok a =>
        refine Right.pure { ag with analyses := forall₂_push ag.analyses ?_ } ⟨fun h => absurd h hd, fun _ h => absurd h hmod⟩
        rw [if_neg hmod]
        exact RAna.none

/-- Giving samples to an analysis of which something is known. -/
theorem accepts {k : ℕ} {oa : Option Analysis} {u : Used} {f : List Fl} (hs : Build s) (h : Holds s base st w) (hpl : Plenty w) (hk : st.analyses[k]? = some oa)
    (hr : RAna s (some u) oa) (hf : ∀ a, oa = some a → a.width * a.height ≤ f.length) :
    ∃ a' w', pyAnalyze s oa (some f) w = some ((if frameError u.width u.height [f] = RDEOK then .ok () else .raised (some (frameError u.width u.height [f])), a'), w') ∧
      RAna s (some (if frameError u.width u.height [f] = RDEOK then { u with frames := u.frames ++ [f] } else u)) a' := by
  obtain ⟨a, ev, rfl, ha, hno, hops, hpw, hsc⟩ := hr u rfl
  have ow := ample (h.pickAnalysis hk) hpl
  simp only [anaBlocks] at ow
  have hlen := hf a rfl
  rw [ha.width, ha.height] at hlen
  obtain ⟨_, w1, _, _, e1, _, _, _, e, a', wd, rfl, hbl, hne, ha', hwd⟩ := (pyAnalyze_act (L1 := a.blocks ++ st.offAnalysis k) hs ha
    (fun b hb => List.mem_append_left _ hb) hlen hsc).run ow
  have hcode : e = frameError u.width u.height [f] := by
    unfold frameError
    rcases reach_frame hs (pyMethod_valid _) (pyEff_valid hs) ha'.reach (c := ⟨.analyze (some f), wd⟩) (e := e) (f := f) (by simp) rfl with h1 | ⟨h1, h2⟩ | ⟨h1, h2⟩
    · exact absurd h1 hne
    · rw [h1, if_pos (fun f' hf' => by rw [List.mem_singleton.mp hf']; exact h2)]
    · rw [h1, if_neg (fun hh => h2 (hh f (by simp)))]
  rw [← hcode]
  refine ⟨_, w1, e1, ?_⟩
  have hno' : NoOom (ev ++ [(⟨.analyze (some f), wd⟩, .analyzed e)]) := by
    intro x hx
    rcases List.mem_append.mp hx with hx | hx
    · exact hno x hx
    · rw [List.mem_singleton.mp hx]
      intro h
      exact hne (Obs.analyzed.inj h)
  have hloop : InLoop s (pyMethod u.method) (pyEff s.cfg u.dict) u.width u.height a'.blocks (ev ++ [(⟨.analyze (some f), wd⟩, .analyzed e)]) a' :=
    ⟨ha'.reach, ha'.good, ha'.width, ha'.height, fun _ h => h⟩
  have han : analysed (ev ++ [(⟨.analyze (some f), wd⟩, .analyzed e)]) = analysed ev ++ (if e = RDEOK then [(⟨.analyze (some f), wd⟩, .analyzed e)] else []) := by
    unfold analysed
    rw [List.filter_append]
    congr 1
    by_cases he : e = RDEOK
    · simp [he]
    · simp [he]
  rintro _ hu
  cases hu
  by_cases he : e = RDEOK
  · rw [if_pos he] at han ⊢
    refine ⟨a', _, rfl, hloop, hno', ?_, ?_, hsc⟩
    · rw [han, List.map_append, hops]
      simp
    · rw [han]
      intro x hx
      rcases List.mem_append.mp hx with hx | hx
      · exact hpw x hx
      · rw [List.mem_singleton.mp hx]
        exact hwd
  · rw [if_neg he] at han ⊢
    rw [List.append_nil] at han
    exact ⟨a', _, rfl, hloop, hno', by rw [han]; exact hops, by rw [han]; exact hpw, hsc⟩

/-- The statements that give samples to analysis `k`. -/
theorem right_samples {k : ℕ} {oa : Option Analysis} {image : Option (List Fl)} {known : Option (List Fl)} (hs : Build s) (h : Holds s base st w) (hpl : Plenty w)
    (ag : Agrees s kn st) (hk : st.analyses[k]? = some oa) (hf : ∀ a im, oa = some a → image = some im → a.width * a.height ≤ im.length)
    (hknown : ∀ l, known = some l → image = some l) (hok : ∀ v, learn s film kn op (.ok v) = kn.accept k known) (hno : ∀ e, learn s film kn op (.raised e) = kn)
    (hexp : ∀ o, (∀ u l, kn.analyses[k]? = some (some u) → known = some l → o = raising (frameError u.width u.height [l]) .unit) → expects s film fuel kn op o) :
    Right s film fuel kn op (do
      let (r, a) ← pyAnalyze s oa image
      return (r.to (fun _ => .unit), { st with analyses := st.analyses.set k a })) w := by
  -- when nothing is known of the analysis
  have dull : (∀ u, kn.analyses[k]? ≠ some (some u)) → Right s film fuel kn op (do
      let (r, a) ← pyAnalyze s oa image
      return (r.to (fun _ => .unit), { st with analyses := st.analyses.set k a })) w := by
    intro hu
    refine Right.any fun v w1 _ => ?_
    obtain ⟨r, a⟩ := v
    have hset : List.Forall₂ (RAna s) kn.analyses (st.analyses.set k a) := by
      cases hka : kn.analyses[k]? with
      | none =>
        have h1 := ag.analyses.length_eq
        rw [List.getElem?_eq_none_iff] at hka
        rw [List.set_eq_of_length_le (by omega)]
        exact ag.analyses
      | some x =>
        cases x with
        | some u => exact absurd hka (hu u)
        | none =>
          have := forall₂_set (k := k) ag.analyses (RAna.none (a := a))
          rwa [set_same hka] at this
    refine Right.pure ?_ (hexp _ fun u l h1 _ => absurd h1 (hu u))
    cases r with
    | raised e => simp only [Raises.to, hno]; exact { ag with analyses := hset }
    | ok _ =>
      simp only [Raises.to, hok]
      have : kn.accept k known = { kn with analyses := kn.analyses.set k none } := by
        unfold Known.accept
        split
        · next h1 => exact absurd h1 (hu _)
        · rfl
      rw [this]
      exact { ag with analyses := forall₂_set ag.analyses RAna.none }
  cases hka : kn.analyses[k]? with
  | none => exact dull fun u h => by rw [hka] at h; cases h
  | some x =>
    cases x with
    | none => exact dull fun u h => by rw [hka] at h; cases h
    | some u =>
      obtain ⟨_, hk', hr⟩ := forall₂_get ag.analyses hka
      rw [hk] at hk'
      cases hk'
      cases image with
      | none =>
        have e : pyAnalyze s oa none w = some ((.raised (some RDEPARAM), oa), w) := by
          obtain ⟨a, _, rfl, _⟩ := hr u rfl
          rfl
        refine Right.bind e (Right.pure ?_ (hexp _ fun u l _ h2 => ?_))
        · simp only [Raises.to, hno]
          rw [set_same hk]
          exact ag
        · have := hknown l h2
          cases this
      | some f =>
        obtain ⟨a', w1, e1, hr'⟩ := accepts hs h hpl hk hr (f := f) (fun a ha => hf a f ha rfl)
        refine Right.bind e1 ?_
        simp only [raising_answer]
        refine Right.pure ?_ (hexp _ fun u' l h1 h2 => ?_)
        · by_cases he : frameError u.width u.height [f] = RDEOK
          · rw [if_pos he] at hr'
            unfold raising
            rw [if_pos he, hok]
            refine { ag with analyses := forall₂_set ag.analyses ?_ }
            cases known with
            | none => rw [hka]; exact RAna.none
            | some l =>
              have := hknown l rfl
              cases this
              rw [hka]
              exact hr'
          · rw [if_neg he] at hr'
            unfold raising
            rw [if_neg he, hno]
            have := forall₂_set (k := k) ag.analyses hr'
            rw [set_same hka] at this
            exact { ag with analyses := this }
        · rw [hka] at h1
          cases h1
          have := hknown l h2
          cases this
          rfl

theorem right_analyze {k j : ℕ} (hs : Build s) (h : Holds s base st w) (hpl : Plenty w) (hf : fair s io fuel st (.analyze k j) w = true) (ag : Agrees s kn st) :
    Right s film fuel kn (.analyze k j) (pyStep s io fuel st (.analyze k j)) w := by
  unfold pyStep
  simp only
  cases hk : st.analyses[k]? with
  | none =>
    refine Right.pure ag fun u W H l h1 _ => ?_
    obtain ⟨_, h2, _⟩ := forall₂_get ag.analyses h1
    rw [hk] at h2
    cases h2
  | some oa =>
    cases hj : st.bufs[j]? with
    | none =>
      refine Right.pure ag fun u W H l _ h1 => ?_
      obtain ⟨_, h2, _⟩ := forall₂_get ag.bufs h1
      rw [hj] at h2
      cases h2
    | some b =>
      simp only
      refine Right.bind (pySamples_run h hj) ?_
      refine right_samples (known := match kn.bufs[j]? with
        | some (.full _ _ x) => x
        | _ => none) hs h hpl ag hk ?_ ?_ (fun _ => rfl) (fun _ => rfl) ?_
      · rintro a im rfl him
        obtain ⟨p, hp, rfl⟩ := Option.map_eq_some_iff.mp him
        simpa [fair, hk, hj, hp] using hf
      · intro l hl
        split at hl
        · next h1 =>
          obtain ⟨b', h2, p, h3, _, _, _, h4⟩ := forall₂_get ag.bufs h1
          rw [hj] at h2
          cases h2
          rw [h3, Option.map_some, h4 l hl]
        · cases hl
      · intro o ho u W H l h1 h2
        exact ho u l h1 (by rw [h2])

theorem right_analyzeList {k : ℕ} {l : List Fl} (hs : Build s) (h : Holds s base st w) (hpl : Plenty w) (hf : fair s io fuel st (.analyzeList k l) w = true)
    (ag : Agrees s kn st) : Right s film fuel kn (.analyzeList k l) (pyStep s io fuel st (.analyzeList k l)) w := by
  unfold pyStep
  simp only
  cases hk : st.analyses[k]? with
  | none =>
    refine Right.pure ag fun u h1 => ?_
    obtain ⟨_, h2, _⟩ := forall₂_get ag.analyses h1
    rw [hk] at h2
    cases h2
  | some oa =>
    simp only
    refine right_samples (image := some (l.map binary32.conv)) (known := some (l.map binary32.conv)) hs h hpl ag hk ?_ (fun _ h => h) (fun _ => rfl) (fun _ => rfl)
      (fun o ho u h1 => ho u _ h1 rfl)
    rintro a im rfl him
    cases him
    simpa [fair, hk] using hf

theorem right_results {k : ℕ} (hs : Build s) (h : Holds s base st w) (hpl : Plenty w) (ag : Agrees s kn st) :
    Right s film fuel kn (.results k) (pyStep s io fuel st (.results k)) w := by
  unfold pyStep
  simp only
  cases hk : st.analyses[k]? with
  | none =>
    refine Right.pure ag fun u p h1 _ => ?_
    obtain ⟨_, h2, _⟩ := forall₂_get ag.analyses h1
    rw [hk] at h2
    cases h2
  | some oa =>
    simp only
    refine Right.any fun r w1 e1 => Right.pure ag fun u p h1 hp hlen => ?_
    obtain ⟨_, hk', hr⟩ := forall₂_get ag.analyses h1
    rw [hk] at hk'
    cases hk'
    obtain ⟨a, ev, rfl, ha, hno, hops, hpw, hsc⟩ := hr u rfl
    have ow := ample (h.pickAnalysis hk) hpl
    simp only [anaBlocks] at ow
    obtain ⟨_, w2, _, _, e2, _, _, _, e, out, c, hleg, hop, hstep, hnm, rfl, hout⟩ := (pyResults_act (L := a.blocks ++ st.offAnalysis k) hs (pyMethod_valid u.method)
      (pyEff_valid hs) ha (fun b hb => List.mem_append_left _ hb) hsc).run ow
    rw [e1] at e2
    obtain ⟨rfl, -⟩ := Prod.mk.inj (Option.some.inj e2)
    rw [stands_eff hs hp]
    show Answers s (pyMethod u.method) _ _ _ _ _
    have hl : (analysed ev).length = u.frames.length := by
      have := congrArg List.length hops
      simpa using this
    have hn := C10_noimg_iff hs (pyMethod_valid u.method) (pyEff_valid hs) ha.reach (by omega) hleg hop (fun _ => rfl) (fun _ => rfl) hstep
    rw [← List.length_eq_zero_iff, hl, List.length_eq_zero_iff] at hn
    rcases results_code hs ha.good hleg hop hstep with h2 | h2 | h2 | h2
    · exact absurd h2.2 (by decide)
    · subst h2
      exact .empty (hn.mp rfl)
    · exact absurd h2 hnm
    · subst h2
      obtain ⟨o1, o2⟩ := hout rfl
      obtain ⟨b1, o1⟩ := Option.isSome_iff_exists.mp o1
      obtain ⟨b2, o2⟩ := Option.isSome_iff_exists.mp o2
      have hret : Returned s (pyMethod u.method) u.width u.height (pyEff s.cfg u.dict) ev a (out.rw.map Buf.data) out.cw (out.rh.map Buf.data) out.ch :=
        ⟨ha.reach, c, a, hleg, hstep⟩
      rw [o1, o2] at hret
      have : answer (RDEOK, out) = .ok (b1.data, b2.data) := by
        unfold answer
        rw [if_pos rfl, o1, o2]
        rfl
      rw [this]
      exact .lists (fun h => absurd (hn.mpr h) (by decide)) hret hno hops hpw

theorem detects_of_outcome {m : Option Method} {p : Option Params} {W H : ℕ} {frames : List (List Fl)} {r : Raises (List Res × List Res)}
    (h : PyOutcome s m p W H frames r) : Detects s m p W H frames (r.to (fun r => .lists r.1 r.2)) := by
  cases h with
  | size h => exact .size h
  | frame h1 h2 => exact .frame h1 h2
  | empty h1 h2 => exact .done h1 (by subst h2; unfold frameError; rw [if_pos (by simp)]) (.empty h2)
  | ok h1 h2 h3 g1 g2 g3 g4 =>
    obtain ⟨a1, a2⟩ := all_analysed g2
    exact .done h1 h2 (.lists h3 g1 a2 (by rw [a1]; exact g3) (by rw [a1]; exact g4))

theorem right_resdetect {j : ℕ} {m : Option String} {d : PyDict} (hs : Build s) (h : Holds s base st w) (hpl : Plenty w) (ag : Agrees s kn st) :
    Right s film fuel kn (.resdetect j m d) (pyStep s io fuel st (.resdetect j m d)) w := by
  unfold pyStep
  simp only
  cases hj : st.bufs[j]? with
  | none =>
    refine Right.pure ag fun W H l p h1 => ?_
    obtain ⟨_, h2, _⟩ := forall₂_get ag.bufs h1
    rw [hj] at h2
    cases h2
  | some b =>
    simp only
    cases hz : b.size with
    | none =>
      refine Right.pure ag fun W H l p h1 => ?_
      obtain ⟨_, h2, q, _, _, h3, _⟩ := forall₂_get ag.bufs h1
      rw [hj] at h2
      cases h2
      rw [hz] at h3
      cases h3
    | some z =>
      obtain ⟨wd, ht, n⟩ := z
      refine Right.bind (pySamples_run h hj) ?_
      refine Right.any fun r w1 e1 => Right.pure ag fun W H l p h1 hp hmod => ?_
      obtain ⟨_, h2, q, hdata, _, h3, h4, h5⟩ := forall₂_get ag.bufs h1
      rw [hj] at h2
      cases h2
      rw [hz] at h3
      cases h3
      have hq := h5 l rfl
      subst hq
      obtain ⟨_, _, _, _, g2, _⟩ := h.bufs b (List.mem_of_getElem? hj) q hdata
      have hmod' := hmod
      obtain ⟨_, _, m3, m4, _⟩ := hmod'
      have h1s : 1 ≤ s.cfg.sizeMax := le_trans hs.wf.pixel_pos hs.wf.pixel_le
      obtain ⟨r', w2, k1, k2, _⟩ := pyResdetect_outcome (m := pyMethod m) hs (pyMethod_valid m) hp.1 (n := 1) (image := q.data) (W := W) (H := H) (by decide) h1s
        (by exact_mod_cast m3) (by exact_mod_cast m4) g2 (by rw [one_mul, h4]) h.own.wf hpl (moderate_huge hmod)
      rw [hdata, Option.map_some] at e1
      rw [show ((1 : ℕ) : ℤ) = 1 from rfl, e1] at k1
      obtain ⟨rfl, -⟩ := Prod.mk.inj (Option.some.inj k1)
      have hfr : framesOf q.data W H 1 = [q.data] := by simp [framesOf, frameOf, List.range_one, ← h4]
      rw [hfr] at k2
      rw [stands_eff hs hp]
      exact detects_of_outcome k2

theorem right_resdetectFile {fn : List UInt8} {ft : Option (List UInt8)} {m : Option String} {d : PyDict} (hs : Build s) (hfilm : film.Shown s io)
    (h : Holds s base st w) (hpl : Plenty w) (ag : Agrees s kn st) :
    Right s film fuel kn (.resdetectFile fn ft m d) (pyStep s io fuel st (.resdetectFile fn ft m d)) w := by
  unfold pyStep
  refine Right.any fun r w1 e1 => Right.pure ag fun f p hf hp hmod hfuel hlen => ?_
  have hy := hfilm fn ft none f hf
  rw [← pyText_opening] at hy
  obtain ⟨r', w2, k1, k2⟩ := pyFile_outcome (m := pyMethod m) hs (pyMethod_valid m) hp.1 hy hfuel hlen h.own.wf hpl (moderate_huge hmod)
  rw [e1] at k1
  obtain ⟨rfl, -⟩ := Prod.mk.inj (Option.some.inj k1)
  rw [stands_eff hs hp]
  exact detects_of_outcome k2

theorem pyItem_some {j : ℕ} {b : PyBuf} {i : PyIndex} {W H n : ℕ} {q : Buf Fl} {v : Fl} (h : Holds s base st w) (hj : st.bufs[j]? = some b)
    (hz : b.size = some ((W : ℤ), (H : ℤ), 1)) (hd : b.data = some q) (hi : pyIndex ⟨0, W, H, 1⟩ i = some (n : ℤ)) (hv : q.data[n]? = some v) :
    pyItem b i w = some (.ok (.float v), w) := by
  unfold pyItem
  rw [hz]
  simp only [hi]
  rw [M.bind_some (pySamples_run h hj), hd]
  simp only [Option.map_some, Int.natCast_nonneg, if_true, Int.toNat_natCast, hv]
  rfl

theorem right_item {j : ℕ} {i : PyIndex} (h : Holds s base st w) (ag : Agrees s kn st) :
    Right s film fuel kn (.item j i) (pyStep s io fuel st (.item j i)) w := by
  unfold pyStep
  simp only
  cases hj : st.bufs[j]? with
  | none =>
    refine Right.pure ag fun W H l h1 => ?_
    obtain ⟨_, h2, _⟩ := forall₂_get ag.bufs h1
    rw [hj] at h2
    cases h2
  | some b =>
    simp only
    refine Right.any fun r w1 e1 => Right.pure ag fun W H l h1 => ?_
    obtain ⟨_, h2, q, hdata, _, hz, h4, h5⟩ := forall₂_get ag.bufs h1
    rw [hj] at h2
    cases h2
    have hq := h5 l rfl
    subst hq
    have key : ∀ {n : ℕ} {v : Fl}, pyIndex ⟨0, W, H, 1⟩ i = some (n : ℤ) → q.data[n]? = some v → r = .ok (.float v) := by
      intro n v g1 g2
      rw [pyItem_some h hj hz hdata g1 g2] at e1
      exact (Prod.mk.inj (Option.some.inj e1)).1.symm
    refine ⟨?_, ?_, ?_⟩
    · rintro n v rfl hv
      refine key ?_ hv
      have hn : n < W * H := by rw [← h4]; exact (List.getElem?_eq_some_iff.mp hv).1
      unfold pyIndex
      simp only
      rw [if_neg]
      have : (n : ℤ) < (W : ℤ) * H := by exact_mod_cast hn
      omega
    · rintro y x v rfl hy hx hv
      refine key ?_ hv
      have hn : y * W + x < W * H := by rw [← h4]; exact (List.getElem?_eq_some_iff.mp hv).1
      have e : ((y * W + x : ℕ) : ℤ) = (0 * (H : ℤ) + y) * W + x := by push_cast; ring
      unfold pyIndex
      simp only [List.length_cons, List.length_nil]
      rw [if_neg (by omega), if_pos (by omega)]
      simp only
      rw [if_neg (by omega), if_neg (by omega), if_neg (by omega)]
      simp only
      rw [← e, if_neg]
      have : ((y * W + x : ℕ) : ℤ) < (W : ℤ) * H := by exact_mod_cast hn
      omega
    · rintro y x rfl hyx
      have : pyIndex ⟨0, W, H, 1⟩ (.tuple [(y : ℤ), (x : ℤ)]) = none := by
        unfold pyIndex
        simp only [List.length_cons, List.length_nil]
        rw [if_neg (by omega), if_pos (by omega)]
        simp only
        rw [if_neg (by omega)]
        by_cases hy : H ≤ y
        · rw [if_pos (by exact_mod_cast hy)]
        · rw [if_neg (by omega), if_pos (by omega)]
      unfold pyItem at e1
      rw [hz] at e1
      simp only [this] at e1
      exact (Prod.mk.inj (Option.some.inj e1)).1.symm

theorem right_step (hs : Build s) (hfilm : film.Shown s io) (h : Holds s base st w) (hpl : Plenty w) (hf : fair s io fuel st op w = true) (ag : Agrees s kn st) :
    Right s film fuel kn op (pyStep s io fuel st op) w := by
  cases op with
  | buffer => exact Right.pure { ag with bufs := forall₂_push ag.bufs ⟨rfl, rfl⟩ } rfl
  | dimensions => exact right_dimensions h hpl hf ag
  | readImage =>
    unfold pyStep
    refine Right.any fun o w1 _ => ?_
    split_ifs
    · exact Right.any fun _ w2 _ => Right.pure ag trivial
    · exact Right.pure { ag with bufs := forall₂_push ag.bufs RBuf.unknown } trivial
  | image => exact right_image hfilm h hpl ag
  | readFrame => exact right_readFrame h hpl ag
  | seek k n p =>
    show Right s film fuel kn (.seek k n p) (pySeek st k n p) w
    unfold pySeek
    cases st.images[k]? with
    | none => exact Right.pure { ag with images := forall₂_forget ag.images fun _ => RImg.none } trivial
    | some i =>
      refine Right.any fun v w1 _ => ?_
      obtain ⟨ret, e, q, i⟩ := v
      simp only
      split_ifs
      · exact Right.pure { ag with images := forall₂_set ag.images RImg.none } trivial
      · exact Right.pure { ag with images := forall₂_set ag.images RImg.none } trivial
  | closeImage k =>
    unfold pyStep
    simp only
    have hlen := ag.images.length_eq
    cases hk : st.images[k]? with
    | none =>
      refine Right.pure { ag with images := forall₂_forget ag.images fun _ => RImg.none } fun h => ?_
      rw [List.getElem?_eq_none_iff] at hk
      omega
    | some i => exact Right.any fun _ w1 _ => Right.pure { ag with images := forall₂_set ag.images RImg.none } fun _ => rfl
  | closeBuffer j =>
    unfold pyStep
    simp only
    have hlen := ag.bufs.length_eq
    cases hk : st.bufs[j]? with
    | none =>
      refine Right.pure { ag with bufs := forall₂_forget ag.bufs fun _ => trivial } fun h => ?_
      rw [List.getElem?_eq_none_iff] at hk
      omega
    | some i => exact Right.any fun _ w1 _ => Right.pure { ag with bufs := forall₂_set ag.bufs trivial } fun _ => rfl
  | item => exact right_item h ag
  | analysis => exact right_analysis hs h hpl ag
  | analyze => exact right_analyze hs h hpl hf ag
  | analyzeList => exact right_analyzeList hs h hpl hf ag
  | results => exact right_results hs h hpl ag
  | destroy k =>
    unfold pyStep
    simp only
    have hlen := ag.analyses.length_eq
    cases hk : st.analyses[k]? with
    | none =>
      refine Right.pure { ag with analyses := forall₂_forget ag.analyses fun _ => RAna.none } fun h => ?_
      rw [List.getElem?_eq_none_iff] at hk
      omega
    | some i => exact Right.any fun _ w1 _ => Right.pure { ag with analyses := forall₂_set ag.analyses RAna.none } fun _ => rfl
  | resdetect => exact right_resdetect hs h hpl ag
  | resdetectFile => exact right_resdetectFile hs hfilm h hpl ag

theorem right_run (hio : io.Contract s.cfg) (hs : Build s) (hfilm : film.Shown s io) (ops : List PyOp) : ∀ {kn : Known} {st : PyState} {w : World},
    Holds s base st w → Agrees s kn st → fairly s io fuel st ops w = true → Amply s io fuel st ops w →
    ∃ obs st' w', pyRun s io fuel st ops w = some ((obs, st'), w') ∧ fulfils s film fuel kn ops obs := by
  induction ops with
  | nil => exact fun _ _ _ _ => ⟨[], _, _, rfl, trivial⟩
  | cons op ops ih =>
    intro kn st w h ag hf ham
    simp only [fairly, Bool.and_eq_true] at hf
    obtain ⟨hf1, hf2⟩ := hf
    obtain ⟨hpl, ham⟩ := ham
    obtain ⟨o, st1, w1, e1, h1⟩ := go hio hs h hf1
    rw [e1] at hf2
    obtain ⟨ag1, hx⟩ := right_step (film := film) hs hfilm h hpl hf1 ag o st1 w1 e1
    obtain ⟨obs, st2, w2, e2, h2⟩ := ih h1 ag1 hf2 (ham o st1 w1 e1)
    refine ⟨o :: obs, st2, w2, ?_, hx, h2⟩
    unfold pyRun
    rw [M.bind_some e1]
    simp only
    rw [M.bind_some e2]
    rfl

theorem Spec.Answers.unique {m : Option Method} {p : Option Params} {W H : ℕ} {frames : List (List Fl)} {o o' : Raises PyVal} (hs : Build s) (hm : ValidMethod? m)
    (hp : ValidParams? s.cfg p) (h : Answers s m p W H frames o) (h' : Answers s m p W H frames o') : o = o' := by
  cases h with
  | empty h1 => cases h' with
    | empty => rfl
    | lists h2 => exact absurd h1 h2
  | lists h1 g1 g2 g3 g4 => cases h' with
    | empty h2 => exact absurd h2 h1
    | lists _ k1 k2 k3 k4 =>
      obtain ⟨e1, e2⟩ := C84_repeatable hs hm hp g2 k2 g1 k1 (sameFrames (List.forall₂_same.mpr fun _ _ => rfl) g3 k3)
        (Or.inr (Or.inr (by
          intro x hx
          rcases List.mem_append.mp hx with hx | hx
          · exact g4 x hx
          · exact k4 x hx)))
      rw [e1 _ _ rfl rfl, e2 _ _ rfl rfl]

theorem Spec.Detects.unique {m : Option Method} {p : Option Params} {W H : ℕ} {frames : List (List Fl)} {o o' : Raises PyVal} (hs : Build s) (hm : ValidMethod? m)
    (hp : ValidParams? s.cfg p) (h : Detects s m p W H frames o) (h' : Detects s m p W H frames o') : o = o' := by
  cases h with
  | size h1 => cases h' with
    | size => rfl
    | frame h2 => exact absurd h2 h1
    | done h2 => exact absurd h2 h1
  | frame h1 h2 => cases h' with
    | size h3 => exact absurd h1 h3
    | frame => rfl
    | done _ h3 => exact absurd h3 h2
  | done h1 h2 g => cases h' with
    | size h3 => exact absurd h1 h3
    | frame _ h3 => exact absurd h2 h3
    | done _ _ g' => exact g.unique hs hm hp g'

end Verif
