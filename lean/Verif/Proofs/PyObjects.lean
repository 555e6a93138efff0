import Verif.Proofs.Wrappers
import Verif.Proofs.ToolLemmas
import Verif.Spec.PyObjects

/-! # The objects of the Python binding keep track of their memory -/

namespace Verif

open Spec Props

variable {s : Sys} {io : Io} {c : Cfg} {fuel : ℕ} {st : PyState} {base w w1 w' : World} {F : Prop} {L S : List ℕ}

theorem flatMap_pick {α : Type} (f : α → List ℕ) {l : List α} {k : ℕ} {a : α} (h : l[k]? = some a) :
    (l.flatMap f).Perm (f a ++ (l.eraseIdx k).flatMap f) := by
  induction l generalizing k with
  | nil => cases h
  | cons b l ih =>
    cases k with
    | zero => cases h; exact List.Perm.refl _
    | succ k =>
      have := ih (k := k) (by simpa using h)
      simp only [List.flatMap_cons, List.eraseIdx_cons_succ]
      exact (this.append_left _).trans (by perm_count)

theorem flatMap_set {α : Type} (f : α → List ℕ) {l : List α} {k : ℕ} {a b : α} (h : l[k]? = some a) :
    ((l.set k b).flatMap f).Perm (f b ++ (l.eraseIdx k).flatMap f) := by
  have hk : k < l.length := (List.getElem?_eq_some_iff.mp h).1
  have e : (l.set k b)[k]? = some b := by rw [List.getElem?_set_self hk]
  have := flatMap_pick f e
  rwa [List.eraseIdx_set_eq] at this

theorem mem_set {α : Type} {l : List α} {k : ℕ} {a b : α} (h : b ∈ l.set k a) : b = a ∨ b ∈ l := (List.mem_or_eq_of_mem_set h).symm

theorem set_same {α : Type} {l : List α} {k : ℕ} {a : α} (h : l[k]? = some a) : l.set k a = l := by
  obtain ⟨hk, rfl⟩ := List.getElem?_eq_some_iff.mp h
  exact List.set_getElem_self hk

/-- Accounting one call after the other. -/
theorem Own.trans {L2 S2 : List ℕ} (h : Own F base L S w) (h2 : Own True w L2 S2 w') : Own True base (L2 ++ L) (S2 ++ S) w' where
  base_wf := h.base_wf
  next := le_trans h.next h2.next
  nodup := by
    rw [List.nodup_append]
    refine ⟨h2.nodup, h.nodup, ?_⟩
    rintro a ha _ hb rfl
    exact (h2.new a ha).1 ((h.live a).mpr (Or.inr hb))
  new := by
    intro b hb
    rcases List.mem_append.mp hb with hb | hb
    · exact ⟨fun h' => (h2.new b hb).1 ((h.live b).mpr (Or.inl h')), (h2.new b hb).2⟩
    · exact ⟨(h.new b hb).1, lt_of_lt_of_le (h.new b hb).2 h2.next⟩
  live := by intro b; rw [h2.live b, h.live b, List.mem_append]; tauto
  live_nodup := h2.live_nodup
  snodup := by
    rw [List.nodup_append]
    refine ⟨h2.snodup, h.snodup, ?_⟩
    rintro a ha _ hb rfl
    exact (h2.snew a ha).1 ((h.files a).mpr (Or.inr hb))
  snew := by
    intro b hb
    rcases List.mem_append.mp hb with hb | hb
    · exact ⟨fun h' => (h2.snew b hb).1 ((h.files b).mpr (Or.inl h')), (h2.snew b hb).2⟩
    · exact ⟨(h.snew b hb).1, lt_of_lt_of_le (h.snew b hb).2 h2.next⟩
  files := by intro b; rw [h2.files b, h.files b, List.mem_append]; tauto
  files_nodup := h2.files_nodup
  sched := fun _ _ => trivial

/-- A buffer knows no more samples than it has. -/
def BufOk (c : Cfg) (b : PyBuf) : Prop := ∀ p, b.data = some p → ∃ wd ht n : ℤ, b.size = some (wd, ht, n) ∧ p.data.length ≤ c.sizeMax ∧
  pySize c n * (pySize c wd * pySize c ht) ≤ p.data.length ∧ wd * ht * n ≤ p.data.length

def bufBlocks (b : PyBuf) : List ℕ := (b.data.map Buf.id).toList

def imgBlocks (i : Option RDImage) : List ℕ :=
  match i with
  | none => []
  | some i => i.block :: (match i.ctx with
    | none => []
    | some x => x.blocks)

def imgFiles (i : Option RDImage) : List ℕ :=
  match i with
  | none => []
  | some i => match i.ctx with
    | none => []
    | some x => x.files

def anaBlocks (a : Option Analysis) : List ℕ :=
  match a with
  | none => []
  | some a => a.blocks

/-- What holds between the statements of a program that started in `base`. -/
structure Holds (s : Sys) (base : World) (st : PyState) (w : World) : Prop where
  own : Own True base (st.bufs.flatMap bufBlocks ++ (st.images.flatMap imgBlocks ++ st.analyses.flatMap anaBlocks)) (st.images.flatMap imgFiles) w
  bufs : ∀ b ∈ st.bufs, BufOk s.cfg b
  images : ∀ i, some i ∈ st.images → ∃ r Ok x, r.Sound s.cfg (fun _ => True) True True Ok ∧ Handle s r Ok i.width i.height i x
  analyses : ∀ a, some a ∈ st.analyses → Good s a

theorem Holds.init (hw : w.WF) : Holds s w {} w :=
  ⟨Own.init hw (fun _ _ => trivial), by simp, by simp, by simp⟩

/-- Only a fresh block was added. -/
theorem Holds.same (h : Holds s base st w) (h2 : Own True w [] [] w') : Holds s base st w' :=
  { h with own := h.own.trans h2 }

theorem Holds.addBuf {b : PyBuf} (h : Holds s base st w) (h2 : Own True w (bufBlocks b) [] w') (hb : BufOk s.cfg b) :
    Holds s base { st with bufs := st.bufs ++ [b] } w' where
  own := (h.own.trans h2).perm (by simp only [List.flatMap_append, List.flatMap_cons, List.flatMap_nil, List.append_nil]; perm_count) (List.Perm.refl _)
  bufs := by
    intro x hx
    rcases List.mem_append.mp hx with hx | hx
    · exact h.bufs x hx
    · rw [List.mem_singleton.mp hx]; exact hb
  images := h.images
  analyses := h.analyses

theorem Holds.addImage {i : RDImage} (h : Holds s base st w) (h2 : Own True w (imgBlocks (some i)) (imgFiles (some i)) w')
    (hi : ∃ r Ok x, r.Sound s.cfg (fun _ => True) True True Ok ∧ Handle s r Ok i.width i.height i x) :
    Holds s base { st with images := st.images ++ [some i] } w' where
  own := (h.own.trans h2).perm (by simp only [List.flatMap_append, List.flatMap_cons, List.flatMap_nil, List.append_nil]; perm_count)
    (by simp only [List.flatMap_append, List.flatMap_cons, List.flatMap_nil, List.append_nil]; perm_count)
  bufs := h.bufs
  images := by
    intro x hx
    rcases List.mem_append.mp hx with hx | hx
    · exact h.images x hx
    · cases List.mem_singleton.mp hx; exact hi
  analyses := h.analyses

theorem Holds.addAnalysis {a : Analysis} (h : Holds s base st w) (h2 : Own True w a.blocks [] w') (ha : Good s a) :
    Holds s base { st with analyses := st.analyses ++ [some a] } w' where
  own := (h.own.trans h2).perm (by
    simp only [List.flatMap_append, List.flatMap_cons, List.flatMap_nil, List.append_nil, anaBlocks]; perm_count) (List.Perm.refl _)
  bufs := h.bufs
  images := h.images
  analyses := by
    intro x hx
    rcases List.mem_append.mp hx with hx | hx
    · exact h.analyses x hx
    · cases List.mem_singleton.mp hx; exact ha

/-- The memory that does not belong to buffer `j`. -/
def PyState.offBuf (st : PyState) (j : ℕ) : List ℕ :=
  (st.bufs.eraseIdx j).flatMap bufBlocks ++ (st.images.flatMap imgBlocks ++ st.analyses.flatMap anaBlocks)

theorem Holds.pickBuf {j : ℕ} {b : PyBuf} (h : Holds s base st w) (hj : st.bufs[j]? = some b) :
    Own True base (bufBlocks b ++ st.offBuf j) (st.images.flatMap imgFiles) w :=
  h.own.perm (((flatMap_pick bufBlocks hj).append_right _).trans (by unfold PyState.offBuf; perm_count)) (List.Perm.refl _)

theorem Holds.setBuf {j : ℕ} {b b' : PyBuf} (h : Holds s base st w) (hj : st.bufs[j]? = some b) (hb : BufOk s.cfg b')
    (ow : Own True base (bufBlocks b' ++ st.offBuf j) (st.images.flatMap imgFiles) w') : Holds s base { st with bufs := st.bufs.set j b' } w' where
  own := ow.perm (((flatMap_set bufBlocks hj).append_right _).trans (by unfold PyState.offBuf; perm_count)).symm (List.Perm.refl _)
  bufs := by
    intro x hx
    rcases mem_set hx with rfl | hx
    · exact hb
    · exact h.bufs x hx
  images := h.images
  analyses := h.analyses

/-- The memory that does not belong to image `k`. -/
def PyState.offImage (st : PyState) (k : ℕ) : List ℕ :=
  st.bufs.flatMap bufBlocks ++ ((st.images.eraseIdx k).flatMap imgBlocks ++ st.analyses.flatMap anaBlocks)

theorem Holds.pickImage {k : ℕ} {i : Option RDImage} (h : Holds s base st w) (hk : st.images[k]? = some i) :
    Own True base (imgBlocks i ++ st.offImage k) (imgFiles i ++ (st.images.eraseIdx k).flatMap imgFiles) w :=
  h.own.perm ((((flatMap_pick imgBlocks hk).append_right _).append_left _).trans (by unfold PyState.offImage; perm_count)) (flatMap_pick imgFiles hk)

theorem Holds.setImage {k : ℕ} {i i' : Option RDImage} (h : Holds s base st w) (hk : st.images[k]? = some i)
    (hi : ∀ x, i' = some x → ∃ r Ok y, r.Sound s.cfg (fun _ => True) True True Ok ∧ Handle s r Ok x.width x.height x y)
    (ow : Own True base (imgBlocks i' ++ st.offImage k) (imgFiles i' ++ (st.images.eraseIdx k).flatMap imgFiles) w') :
    Holds s base { st with images := st.images.set k i' } w' where
  own := ow.perm ((((flatMap_set imgBlocks hk).append_right _).append_left _).trans (by unfold PyState.offImage; perm_count)).symm
    (flatMap_set imgFiles hk).symm
  bufs := h.bufs
  images := by
    intro x hx
    rcases mem_set hx with hx | hx
    · exact hi x hx.symm
    · exact h.images x hx
  analyses := h.analyses

/-- The memory that does not belong to analysis `k`. -/
def PyState.offAnalysis (st : PyState) (k : ℕ) : List ℕ :=
  st.bufs.flatMap bufBlocks ++ (st.images.flatMap imgBlocks ++ (st.analyses.eraseIdx k).flatMap anaBlocks)

theorem Holds.pickAnalysis {k : ℕ} {a : Option Analysis} (h : Holds s base st w) (hk : st.analyses[k]? = some a) :
    Own True base (anaBlocks a ++ st.offAnalysis k) (st.images.flatMap imgFiles) w :=
  h.own.perm ((((flatMap_pick anaBlocks hk).append_left _).append_left _).trans (by unfold PyState.offAnalysis; perm_count)) (List.Perm.refl _)

theorem Holds.setAnalysis {k : ℕ} {a a' : Option Analysis} (h : Holds s base st w) (hk : st.analyses[k]? = some a) (ha : ∀ x, a' = some x → Good s x)
    (ow : Own True base (anaBlocks a' ++ st.offAnalysis k) (st.images.flatMap imgFiles) w') :
    Holds s base { st with analyses := st.analyses.set k a' } w' where
  own := ow.perm ((((flatMap_set anaBlocks hk).append_left _).append_left _).trans (by unfold PyState.offAnalysis; perm_count)).symm (List.Perm.refl _)
  bufs := h.bufs
  images := h.images
  analyses := by
    intro x hx
    rcases mem_set hx with hx | hx
    · exact ha x hx.symm
    · exact h.analyses x hx

theorem run_of_some {α : Type} {f : M α} {Q : α → List ℕ → List ℕ → Prop} (h : Act True F L S f Q) (ow : Own F base L S w) (hs : (f w).isSome = true) :
    ∃ a w' L' S', f w = some (a, w') ∧ Own F base L' S' w' ∧ Q a L' S' := by
  rcases h base w ow with ⟨h, _⟩ | h
  · rw [h] at hs; cases hs
  · exact h

/-! ## The statements -/

/-- A statement does something defined and keeps the invariant. -/
def Carries (s : Sys) (base : World) (m : M (Raises PyVal × PyState)) (w : World) : Prop :=
  ∃ o st' w', m w = some ((o, st'), w') ∧ Holds s base st' w'

theorem Carries.pure {o : Raises PyVal} (h : Holds s base st w) : Carries s base (Pure.pure (o, st)) w := ⟨o, st, w, rfl, h⟩

theorem Carries.bind {α : Type} {f : M α} {g : α → M (Raises PyVal × PyState)} {a : α} (h : f w = some (a, w1)) (hg : Carries s base (g a) w1) :
    Carries s base (f >>= g) w := by
  obtain ⟨o, st', w', h1, h2⟩ := hg
  exact ⟨o, st', w', (M.bind_some h).trans h1, h2⟩

theorem own0 (h : Holds s base st w) : Own True w [] [] w := Own.init h.own.wf (fun _ _ => trivial)

theorem pySize_nat {n : ℕ} (h : n ≤ c.sizeMax) : pySize c n = n := by
  unfold pySize
  rw [Int.emod_eq_of_lt (by omega) (by omega)]
  simp

theorem pySize_zero : pySize c 0 = 0 := by unfold pySize; simp

theorem bufOk_sizes {p : Buf Fl} {a b n : ℕ} {q : Option (Option (Buf Fl))} (h1 : p.data.length ≤ c.sizeMax) (h2 : a * b * n ≤ p.data.length) :
    BufOk c { data := some p, param := q, size := some (a, b, n) } := by
  rintro _ h
  cases h
  refine ⟨a, b, n, rfl, h1, ?_, by exact_mod_cast h2⟩
  by_cases h0 : a = 0 ∨ b = 0 ∨ n = 0
  · rcases h0 with rfl | rfl | rfl <;> simp [pySize_zero]
  · rw [not_or, not_or] at h0
    obtain ⟨ha, hb, hn⟩ := h0
    have ha' : 1 ≤ a := by omega
    have hb' : 1 ≤ b := by omega
    have hn' : 1 ≤ n := by omega
    have e1 : a ≤ a * b * n := by nlinarith [Nat.mul_le_mul ha' hb', Nat.mul_le_mul (Nat.le_mul_of_pos_right a hb') hn']
    have e2 : b ≤ a * b * n := by nlinarith [Nat.mul_le_mul (Nat.le_mul_of_pos_left b ha') hn']
    have e3 : n ≤ a * b * n := Nat.le_mul_of_pos_left n (by positivity)
    rw [pySize_nat (by omega), pySize_nat (by omega), pySize_nat (by omega)]
    calc n * (a * b) = a * b * n := by ring
      _ ≤ _ := h2

theorem go_dimensions {wd ht n : ℤ} (h : Holds s base st w) (hf : fair s io fuel st (.dimensions wd ht n) w = true) :
    Carries s base (pyStep s io fuel st (.dimensions wd ht n)) w := by
  simp only [fair, decide_eq_true_eq] at hf
  obtain ⟨h1, h2, h3, h4, h5⟩ := hf
  obtain ⟨o, w1, e1, ow, _⟩ := malloc_own (own0 h)
  unfold pyStep
  refine Carries.bind e1 ?_
  cases o with
  | none => exact Carries.pure (h.addBuf (b := { size := some (wd, ht, n) }) ow (by rintro _ h; cases h))
  | some b =>
    refine Carries.pure (h.addBuf (b := { data := some ⟨b, _⟩, size := some (wd, ht, n) }) (by simpa [bufBlocks] using ow) ?_)
    obtain ⟨wd, rfl⟩ := Int.eq_ofNat_of_zero_le h1
    obtain ⟨ht, rfl⟩ := Int.eq_ofNat_of_zero_le h2
    obtain ⟨n, rfl⟩ := Int.eq_ofNat_of_zero_le h3
    have h5' : wd * ht * 4 ≤ s.cfg.sizeMax := by exact_mod_cast h5
    have e : pySize s.cfg ((wd : ℤ) * ht * 4) = wd * ht * 4 := by
      have := pySize_nat (c := s.cfg) h5'
      rw [← this]; push_cast; rfl
    refine bufOk_sizes ?_ ?_
    · rw [List.length_replicate, e]; omega
    · rw [List.length_replicate, e, Nat.mul_div_cancel _ (by omega)]
      have : n ≤ 1 := by omega
      calc wd * ht * n ≤ wd * ht * 1 := Nat.mul_le_mul_left _ this
        _ = _ := by ring

theorem go_readImage {fn : List UInt8} {ft : Option (List UInt8)} (hio : io.Contract s.cfg) (h : Holds s base st w)
    (hf : fair s io fuel st (.readImage fn ft) w = true) : Carries s base (pyStep s io fuel st (.readImage fn ft)) w := by
  obtain ⟨o, w1, L1, S1, e1, ow, rfl, _, h1⟩ := run_of_some (readImage_act hio) (own0 h) hf
  unfold pyStep
  refine Carries.bind e1 ?_
  rcases h1 with ⟨h1, h2, rfl⟩ | ⟨h1, h2, b, h3, rfl, h5, h6⟩
  · rw [if_pos h1, h2]
    exact Carries.pure (h.same ow)
  · rw [if_neg (by simp [h1])]
    refine Carries.pure (h.addBuf (b := { data := o.images, size := _ }) (by rw [h3]; exact ow) ?_)
    rw [h3]
    have e : o.width * o.height * (o.nimages + 1) = o.width * o.height * o.nimages + o.width * o.height := by ring
    exact bufOk_sizes (by have := h6.2; omega) (by omega)

/-- What opening an image gives. -/
def PyOpened (s : Sys) (wantBuf : Bool) (o : Opened) (w w' : World) : Prop :=
  (∃ i, o.image = some i ∧ (∃ r Ok x, r.Sound s.cfg (fun _ => True) True True Ok ∧ Handle s r Ok i.width i.height i x) ∧ Within s.cfg o.width o.height ∧
    (if wantBuf then ∃ b, o.buf = some b ∧ b.data.length = o.width * o.height else o.buf = none) ∧
    Own True w ((o.buf.map Buf.id).toList ++ imgBlocks (some i)) (imgFiles (some i)) w') ∨
  (o.image = none ∧ o.buf = none ∧ Own True w [] [] w')

theorem pyOpen_run {fn : List UInt8} {ft rn : Option (List UInt8)} {wantBuf : Bool} (hio : io.Contract s.cfg) (hw : w.WF)
    (hf : (pyOpen s io fn ft rn wantBuf w).isSome = true) : ∃ o w', pyOpen s io fn ft rn wantBuf w = some (o, w') ∧ PyOpened s wantBuf o w w' := by
  have key : Act True True [] [] (pyOpen s io fn ft rn wantBuf) (OpenPost s True wantBuf [] []) := by
    unfold pyOpen
    split
    · exact apiOpenWith_act hio
    · exact apiOpen_act hio
  obtain ⟨o, w1, L1, S1, e1, ow, h1⟩ := run_of_some key (Own.init hw (fun _ _ => trivial)) hf
  refine ⟨o, w1, e1, ?_⟩
  rcases h1 with ⟨r, Ok, i, x, hr, ho, hp, rfl⟩ | ⟨h1, _, _, rfl, rfl⟩
  · refine Or.inl ⟨i, ho.image, ⟨r, Ok, x, hr, ?_⟩, ho.within, ?_, ?_⟩
    · rw [ho.width, ho.height]; exact ho.handle
    · have := ho.buf
      split_ifs at this ⊢
      · obtain ⟨b, hb⟩ := this
        exact ⟨_, hb, by simp⟩
      · exact this
    · simp only [imgBlocks, imgFiles, ho.ctx]
      refine ow.perm (hp.trans (by simp)) (by simp)
  · rw [h1]
    exact Or.inr ⟨rfl, rfl, ow⟩

theorem go_image {fn : List UInt8} {ft rn : Option (List UInt8)} {buf : Option ℕ} (hio : io.Contract s.cfg) (h : Holds s base st w)
    (hf : fair s io fuel st (.image fn ft rn buf) w = true) : Carries s base (pyStep s io fuel st (.image fn ft rn buf)) w := by
  simp only [fair, Bool.and_eq_true] at hf
  obtain ⟨hf, hb⟩ := hf
  obtain ⟨o, w1, e1, ho⟩ := pyOpen_run hio h.own.wf hf
  show Carries s base (pyImage s io st fn ft rn buf) w
  unfold pyImage
  cases buf with
  | none =>
    refine Carries.bind e1 ?_
    rcases ho with ⟨i, h1, h2, _, h3, ow⟩ | ⟨h1, h2, ow⟩
    · rw [h1]
      simp only [Option.isSome_none, Bool.false_eq_true, if_false] at h3
      rw [h3] at ow
      exact Carries.pure (h.addImage (by simpa using ow) h2)
    · rw [h1]
      exact Carries.pure (h.same ow)
  | some k =>
    cases hk : st.bufs[k]? with
    | none => simp only [hk]; exact Carries.pure h
    | some b =>
      simp only [hk, Option.isNone_iff_eq_none] at hb ⊢
      have hbb : bufBlocks b = [] := by unfold bufBlocks; rw [hb]; rfl
      have hp := h.pickBuf hk
      rw [hbb, List.nil_append] at hp
      refine Carries.bind e1 ?_
      rcases ho with ⟨i, h1, h2, hwi, h3, ow⟩ | ⟨h1, h2, ow⟩
      · simp only [h1]
        simp only [Option.isSome_some, if_true] at h3
        obtain ⟨p, h3, h4⟩ := h3
        refine Carries.pure ?_
        have ha : Own True w (imgBlocks (some i) ++ bufBlocks { b with data := o.buf, size := some (↑o.width, ↑o.height, 1) }) (imgFiles (some i)) w1 :=
          ow.perm (by unfold bufBlocks; simp only; perm_count) (List.Perm.refl _)
        have hbo : BufOk s.cfg { b with data := o.buf, size := some (↑o.width, ↑o.height, 1) } := by
          rw [h3]
          exact bufOk_sizes (n := 1) (by have := hwi.2.2.2; omega) (by rw [h4]; omega)
        have hset := (hp.trans ha)
        refine ⟨?_, ?_, ?_, h.analyses⟩
        · refine hset.perm ?_ ?_
          · simp only [List.flatMap_append, List.flatMap_cons, List.flatMap_nil, List.append_nil]
            refine List.Perm.trans ?_ ((flatMap_set bufBlocks hk).append_right _).symm
            unfold PyState.offBuf
            perm_count
          · simp only [List.flatMap_append, List.flatMap_cons, List.flatMap_nil, List.append_nil]
            perm_count
        · intro x hx
          rcases mem_set hx with rfl | hx
          · exact hbo
          · exact h.bufs x hx
        · intro x hx
          rcases List.mem_append.mp hx with hx | hx
          · exact h.images x hx
          · cases List.mem_singleton.mp hx; exact h2
      · simp only [h1]
        refine Carries.pure (h.setBuf hk (b' := { b with data := o.buf }) ?_ ?_)
        · rintro _ hx; simp only [h2] at hx; cases hx
        · have e : bufBlocks { b with data := o.buf } = [] := by unfold bufBlocks; simp only [h2]; rfl
          rw [e, List.nil_append]
          simpa using hp.trans ow

theorem go_readFrame {k j : ℕ} (h : Holds s base st w) (hf : fair s io fuel st (.readFrame k j) w = true) :
    Carries s base (pyStep s io fuel st (.readFrame k j)) w := by
  show Carries s base (pyReadFrame st k j) w
  unfold pyReadFrame
  cases hk : st.images[k]? with
  | none => exact Carries.pure h
  | some oi =>
    cases hj : st.bufs[j]? with
    | none => exact Carries.pure h
    | some b =>
      simp only
      -- what a call without effect leaves
      have idle : ∀ e : RDError, e ≠ 0 → readImageFrame oi b.pointer 0 = Pure.pure (false, e, b.pointer, oi) →
          Carries s base (do
            let (ret, e, p, i) ← readImageFrame oi b.pointer 0
            let b := match b.param with
              | none => { b with data := p }
              | some _ => { b with param := some p }
            let st := { st with images := st.images.set k i, bufs := st.bufs.set j b }
            if e ≠ 0 then return (.raised (some e), st) else return (.ok (.bool ret), st)) w := by
        intro e he hr
        rw [hr]
        simp only [pure_bind, if_pos he]
        have hb : (match b.param with
              | none => { b with data := b.pointer }
              | some _ => { b with param := some b.pointer }) = b := by
          obtain ⟨d, p, sz⟩ := b
          cases p <;> rfl
        rw [hb, set_same hk, set_same hj]
        exact Carries.pure h
      cases oi with
      | none =>
        refine idle RDEPARAM (by decide) ?_
        cases b.pointer <;> rfl
      | some i =>
        cases hp : b.pointer with
        | none => rw [← hp]; exact idle RDEPARAM (by decide) (by rw [hp]; rfl)
        | some p =>
          simp only [fair, hk, hj, hp, Bool.and_eq_true, Option.isNone_iff_eq_none, decide_eq_true_eq] at hf
          obtain ⟨⟨hpar, hlen⟩, hread⟩ := hf
          have hdata : b.data = some p := by
            unfold PyBuf.pointer at hp; rw [hpar] at hp; exact hp
          obtain ⟨r, Ok, x, hr, hi⟩ := h.images i (List.mem_of_getElem? hk)
          simp only [hi.reader, hi.ctx] at hread
          have hib : imgBlocks (some i) = i.block :: x.blocks := by simp only [imgBlocks, hi.ctx]
          have hif : imgFiles (some i) = x.files := by simp only [imgFiles, hi.ctx]
          have ow := h.pickImage hk
          rw [hib, hif] at ow
          have hmemp : p.id ∈ st.offImage k := by
            unfold PyState.offImage
            refine List.mem_append_left _ (List.mem_flatMap.mpr ⟨b, List.mem_of_getElem? hj, ?_⟩)
            simp [bufBlocks, hdata]
          have hl1 : p.id ∈ w.live := (ow.live _).mpr (Or.inr (by simp [hmemp]))
          have hl2 : i.block ∈ w.live := (ow.live _).mpr (Or.inr (by simp))
          obtain ⟨v, w1, L1, S1, e1, ow1, hsp, _, _, hx', rfl, rfl⟩ := run_of_some
            (hr.reads (i.block :: st.offImage k) ((st.images.eraseIdx k).flatMap imgFiles) x p.data i.width i.height hi.ok hi.within hlen)
            (ow.perm (by perm_count) (List.Perm.refl _)) hread
          have hrun : readImageFrame (some i) (some p) 0 w = some ((v.1, v.2.1, some { p with data := v.2.2.1 }, some { i with ctx := some v.2.2.2 }), w1) := by
            unfold readImageFrame
            simp only
            rw [M.bind_some (touch_live hl2), M.bind_some (touch_live hl1), hi.reader, hi.ctx]
            rw [M.bind_some (a := r) (w' := w) rfl, M.bind_some (a := x) (w' := w) rfl, if_neg (by omega), List.drop_zero]
            rw [M.bind_some e1]
            simp
          refine Carries.bind hrun ?_
          simp only [hpar]
          have hset1 : Holds s base { st with images := st.images.set k (some { i with ctx := some v.2.2.2 }) } w1 := by
            refine h.setImage hk ?_ ?_
            · rintro _ hx; cases hx; exact ⟨r, Ok, v.2.2.2, hr, hi.move hx'⟩
            · simp only [imgBlocks, imgFiles]
              exact ow1.perm (by perm_count) (List.Perm.refl _)
          have hlen' : v.2.2.1.length = p.data.length := hsp.1
          have hset2 := hset1.setBuf (j := j) (b := b) (b' := { b with data := some { p with data := v.2.2.1 } }) hj (by
            rintro _ hx
            cases hx
            obtain ⟨wd, ht, n, g1, g2, g3, g4⟩ := h.bufs b (List.mem_of_getElem? hj) p hdata
            exact ⟨wd, ht, n, g1, by rw [hlen']; exact g2, by rw [hlen']; exact g3, by rw [hlen']; exact g4⟩)
            (by
              have := hset1.pickBuf (j := j) hj
              have e : bufBlocks b = bufBlocks { b with data := some { p with data := v.2.2.1 } } := by simp [bufBlocks, hdata]
              rw [e] at this
              exact this)
          simp only [hpar] at hset2
          split_ifs
          · exact Carries.pure hset2
          · exact Carries.pure hset2

theorem go_seek {k : ℕ} {n : ℤ} {p : Bool} (h : Holds s base st w) (hf : fair s io fuel st (.seek k n p) w = true) :
    Carries s base (pyStep s io fuel st (.seek k n p)) w := by
  show Carries s base (pySeek st k n p) w
  unfold pySeek
  cases hk : st.images[k]? with
  | none => exact Carries.pure h
  | some oi =>
    simp only
    cases oi with
    | none =>
      refine Carries.bind (a := (false, RDEPARAM, [], none)) (w1 := w) rfl ?_
      simp only
      rw [if_pos (by decide), set_same hk]
      exact Carries.pure h
    | some i =>
      obtain ⟨r, Ok, x, hr, hi⟩ := h.images i (List.mem_of_getElem? hk)
      simp only [fair, hk, hi.reader, hi.ctx] at hf
      have hib : imgBlocks (some i) = i.block :: x.blocks := by simp only [imgBlocks, hi.ctx]
      have hif : imgFiles (some i) = x.files := by simp only [imgFiles, hi.ctx]
      have ow := h.pickImage hk
      rw [hib, hif] at ow
      have hl2 : i.block ∈ w.live := (ow.live _).mpr (Or.inr (by simp))
      obtain ⟨v, w1, L1, S1, e1, ow1, _, _, hx', rfl, rfl⟩ := run_of_some
        (hr.seeks (i.block :: st.offImage k) ((st.images.eraseIdx k).flatMap imgFiles) x (pyOffset n) p i.width i.height hi.ok hi.within)
        (ow.perm (by perm_count) (List.Perm.refl _)) hf
      have hrun : seekFrame (some i) (pyOffset n) p w = some ((v.1, v.2.1, v.2.2.1, some { i with ctx := some v.2.2.2 }), w1) := by
        unfold seekFrame
        simp only
        rw [M.bind_some (touch_live hl2), hi.reader, hi.ctx]
        rw [M.bind_some (a := r) (w' := w) rfl, M.bind_some (a := x) (w' := w) rfl]
        rw [M.bind_some e1]
        rfl
      refine Carries.bind hrun ?_
      have hset1 : Holds s base { st with images := st.images.set k (some { i with ctx := some v.2.2.2 }) } w1 := by
        refine h.setImage hk ?_ ?_
        · rintro _ hx; cases hx; exact ⟨r, Ok, v.2.2.2, hr, hi.move hx'⟩
        · simp only [imgBlocks, imgFiles]
          exact ow1.perm (by perm_count) (List.Perm.refl _)
      simp only
      split_ifs
      · exact Carries.pure hset1
      · exact Carries.pure hset1

theorem go_closeImage {k : ℕ} (h : Holds s base st w) : Carries s base (pyStep s io fuel st (.closeImage k)) w := by
  unfold pyStep
  simp only
  cases hk : st.images[k]? with
  | none => exact Carries.pure h
  | some oi =>
    simp only
    cases oi with
    | none =>
      refine Carries.bind (a := ()) (w1 := w) rfl ?_
      rw [set_same hk]
      exact Carries.pure h
    | some i =>
      obtain ⟨r, Ok, x, hr, hi⟩ := h.images i (List.mem_of_getElem? hk)
      have ow := h.pickImage hk
      simp only [imgBlocks, imgFiles, hi.ctx] at ow
      obtain ⟨_, w1, L1, S1, e1, ow1, rfl, rfl⟩ := Act.run (closeImage_act hr hi.reader hi.ctx hi.ok (List.Perm.refl _) (List.Perm.refl _)) ow
      refine Carries.bind e1 ?_
      exact Carries.pure (h.setImage hk (by rintro _ hx; cases hx) ow1)

theorem go_closeBuffer {j : ℕ} (h : Holds s base st w) : Carries s base (pyStep s io fuel st (.closeBuffer j)) w := by
  unfold pyStep
  simp only
  cases hj : st.bufs[j]? with
  | none => exact Carries.pure h
  | some b =>
    simp only
    obtain ⟨_, w1, L1, S1, e1, ow1, rfl, rfl⟩ := Act.run (Act.freeOpt (List.Perm.refl _)) (h.pickBuf hj)
    have e : b.close w = some ({ b with data := none, param := some b.pointer }, w1) := by
      unfold PyBuf.close
      exact (M.bind_some (show freeBuf b.data w = _ from e1)).trans rfl
    refine Carries.bind e ?_
    exact Carries.pure (h.setBuf hj (by rintro _ hx; cases hx) ow1)

theorem pySamples_run {j : ℕ} {b : PyBuf} (h : Holds s base st w) (hj : st.bufs[j]? = some b) : pySamples b w = some (b.data.map Buf.data, w) := by
  unfold pySamples
  cases hd : b.data with
  | none => rfl
  | some p =>
    have : p.id ∈ w.live := ((h.pickBuf hj).live _).mpr (Or.inr (by simp [bufBlocks, hd]))
    simp only
    rw [M.bind_some (touch_live this)]
    rfl

theorem pyIndex_lt {b : PyBuffer} {i : PyIndex} {k : ℤ} (h : pyIndex b i = some k) : k < b.width * b.height * b.nimages := by
  unfold pyIndex at h
  simp only at h
  split at h
  · cases h
  · split_ifs at h with h1
    cases h
    omega

theorem go_item {j : ℕ} {i : PyIndex} (h : Holds s base st w) (hf : fair s io fuel st (.item j i) w = true) :
    Carries s base (pyStep s io fuel st (.item j i)) w := by
  unfold pyStep
  simp only
  cases hj : st.bufs[j]? with
  | none => exact Carries.pure h
  | some b =>
    simp only
    have : ∃ r, pyItem b i w = some (r, w) := by
      unfold pyItem
      cases hs : b.size with
      | none => exact ⟨_, rfl⟩
      | some z =>
        obtain ⟨wd, ht, n⟩ := z
        simp only
        cases hi : pyIndex ⟨0, wd, ht, n⟩ i with
        | none => exact ⟨_, rfl⟩
        | some k =>
          simp only [fair, hj, hs, hi, decide_eq_true_eq] at hf
          simp only
          rw [M.bind_some (pySamples_run h hj)]
          cases hd : b.data with
          | none => exact ⟨_, rfl⟩
          | some p =>
            obtain ⟨wd', ht', n', g1, _, _, g4⟩ := h.bufs b (List.mem_of_getElem? hj) p hd
            rw [hs] at g1
            cases g1
            have hlt := pyIndex_lt hi
            simp only at hlt
            have hk : k.toNat < p.data.length := by omega
            simp only [Option.map_some]
            rw [if_pos hf, List.getElem?_eq_getElem hk]
            exact ⟨_, rfl⟩
    obtain ⟨r, e⟩ := this
    exact Carries.bind e (Carries.pure h)

theorem pyMethod_valid (m : Option String) : ValidMethod? (pyMethod m) := by
  cases m with
  | none => intro x hx; cases hx
  | some n => exact getMethod_valid (some n)

theorem go_analysis {wd ht : ℤ} {m : Option String} {d : PyDict} (hs : Build s) (h : Holds s base st w)
    (hf : fair s io fuel st (.analysis wd ht m d) w = true) : Carries s base (pyStep s io fuel st (.analysis wd ht m d)) w := by
  simp only [fair, keeps, Bool.or_eq_true, decide_eq_true_eq] at hf
  unfold pyStep
  simp only
  have key : ∃ r w', pyAnalysis s (pyMethod m) wd ht d w = some (r, w') ∧
      ((∃ e, r = .raised e ∧ Own True w [] [] w') ∨ ∃ a, r = .ok a ∧ Good s a ∧ Own True w a.blocks [] w') := by
    unfold pyAnalysis
    by_cases hd : d.unknown = true
    · rw [M.bind_some ((C51_python_partial (c := s.cfg) (w := w)).1 hd)]
      exact ⟨_, w, rfl, Or.inl ⟨_, rfl, own0 h⟩⟩
    · obtain ⟨q, w1, e1, hp, ow⟩ := pyParameters_own (F := True) hs (by simpa using hd) h.own.wf (fun _ _ => trivial)
      rw [M.bind_some e1]
      simp only
      obtain ⟨r, w2, L', S', e2, ow2, rfl, hc⟩ := Act.run (Act.ofTri (createAnalysis_tri (F := True) hs (pyMethod_valid m) hp
        (w := pySize s.cfg wd) (h := pySize s.cfg ht) (fun _ => trivial))) ow
      rw [M.bind_some e2]
      have fin : ∀ {R : List ℕ}, L'.Perm ((q.map Prod.fst).toList ++ R) → ∃ w3, free (q.map Prod.fst) w2 = some ((), w3) ∧ Own True w R [] w3 := by
        intro R hperm
        obtain ⟨_, w3, _, _, e3, ow3, rfl, rfl⟩ := Act.run (Act.freeOpt hperm) ow2
        exact ⟨w3, e3, ow3⟩
      have failed : L' = (q.map Prod.fst).toList → r.1 = none → ∃ r' w', (do
          free (q.map Prod.fst)
          match r.1 with
          | none => return .raised (some r.2)
          | some a => return .ok a : M (Raises Analysis)) w2 = some (r', w') ∧
          ((∃ e, r' = .raised e ∧ Own True w [] [] w') ∨ ∃ a, r' = .ok a ∧ Good s a ∧ Own True w a.blocks [] w') := by
        intro hL hr
        obtain ⟨w3, e3, ow3⟩ := fin (R := []) (by rw [hL]; simp)
        rw [M.bind_some e3, hr]
        exact ⟨_, w3, rfl, Or.inl ⟨_, rfl, ow3⟩⟩
      cases hc with
      | ok a L' hfr hperm _ _ _ =>
        obtain ⟨w3, e3, ow3⟩ := fin (R := a.blocks) (hperm.trans List.perm_append_comm)
        rw [M.bind_some e3]
        exact ⟨_, w3, rfl, Or.inr ⟨a, rfl, hfr.good, ow3⟩⟩
      | zero => exact failed rfl rfl
      | toobig => exact failed rfl rfl
      | internal => exact failed rfl rfl
      | nomem L' _ hL =>
        refine failed ?_ rfl
        rcases hL with hL | ⟨h1, h2, _⟩
        · exact hL
        · rcases hf with hf | hf
          · rw [hf] at h1; cases h1
          · exact absurd hf h2
  obtain ⟨r, w1, e1, hr⟩ := key
  refine Carries.bind e1 ?_
  rcases hr with ⟨e, rfl, ow⟩ | ⟨a, rfl, hg, ow⟩
  · exact Carries.pure (h.same ow)
  · exact Carries.pure (h.addAnalysis ow hg)

/-- Analysing samples, if there are enough. -/
theorem go_samples {k : ℕ} {oa : Option Analysis} {image : Option (List Fl)} (hs : Build s) (h : Holds s base st w) (hk : st.analyses[k]? = some oa)
    (hi : ∀ a im, oa = some a → image = some im → a.width * a.height ≤ im.length) :
    ∃ r a' w', pyAnalyze s oa image w = some ((r, a'), w') ∧ Holds s base { st with analyses := st.analyses.set k a' } w' := by
  have idle : ∀ e : RDError, e ≠ 0 → analyzeImage s oa image w = some ((e, oa), w) →
      ∃ r a' w', pyAnalyze s oa image w = some ((r, a'), w') ∧ Holds s base { st with analyses := st.analyses.set k a' } w' := by
    intro e he h1
    refine ⟨.raised (some e), oa, w, ?_, by rw [set_same hk]; exact h⟩
    unfold pyAnalyze
    rw [M.bind_some h1]
    simp only
    rw [if_pos he]
    rfl
  cases oa with
  | none => exact idle RDEPARAM (by decide) rfl
  | some a =>
    cases image with
    | none => exact idle RDEPARAM (by decide) rfl
    | some im =>
      have hg := h.analyses a (List.mem_of_getElem? hk)
      have ow := h.pickAnalysis hk
      simp only [anaBlocks] at ow
      obtain ⟨e, a', w1, h1, h2, _, _, h5, _⟩ := analyzeImage_rel hs hg ow.rel (fun b hb => List.mem_append_left _ hb) (hi a im rfl rfl)
      obtain ⟨hg', hb⟩ := h5.good hg
      have hold : Holds s base { st with analyses := st.analyses.set k (some a') } w1 := by
        refine h.setAnalysis hk ?_ ?_
        · rintro _ hx; cases hx; exact hg'
        · simp only [anaBlocks, hb]
          exact ow.ofRel h2
      unfold pyAnalyze
      rw [M.bind_some h1]
      simp only
      split_ifs
      · exact ⟨_, _, w1, rfl, hold⟩
      · exact ⟨_, _, w1, rfl, hold⟩

theorem go_analyze {k j : ℕ} (hs : Build s) (h : Holds s base st w) (hf : fair s io fuel st (.analyze k j) w = true) :
    Carries s base (pyStep s io fuel st (.analyze k j)) w := by
  unfold pyStep
  simp only
  cases hk : st.analyses[k]? with
  | none => exact Carries.pure h
  | some oa =>
    cases hj : st.bufs[j]? with
    | none => exact Carries.pure h
    | some b =>
      simp only
      refine Carries.bind (pySamples_run h hj) ?_
      obtain ⟨r, a', w1, e1, h1⟩ := go_samples (image := b.data.map Buf.data) hs h hk (by
        rintro a im rfl him
        obtain ⟨p, hp, rfl⟩ := Option.map_eq_some_iff.mp him
        simpa [fair, hk, hj, hp] using hf)
      exact Carries.bind e1 (Carries.pure h1)

theorem go_analyzeList {k : ℕ} {l : List Fl} (hs : Build s) (h : Holds s base st w) (hf : fair s io fuel st (.analyzeList k l) w = true) :
    Carries s base (pyStep s io fuel st (.analyzeList k l)) w := by
  unfold pyStep
  simp only
  cases hk : st.analyses[k]? with
  | none => exact Carries.pure h
  | some oa =>
    simp only
    obtain ⟨r, a', w1, e1, h1⟩ := go_samples (image := some (l.map binary32.conv)) hs h hk (by
      rintro a im rfl him
      cases him
      simpa [fair, hk] using hf)
    exact Carries.bind (show pyAnalyzeList s oa l w = _ from e1) (Carries.pure h1)

theorem results_held {oa : Option Analysis} (hs : Build s) (hw : w.WF) (hg : ∀ a, oa = some a → Good s a)
    (hl : ∀ a, oa = some a → ∀ b ∈ a.blocks, b ∈ w.live) :
    ∃ v w2, analysisResults s oa .all w = some ((v.1, v.2, oa), w2) ∧ Called v w w2 := by
  cases oa with
  | none =>
    exact ⟨(RDEPARAM, Out.nothing), w, rfl, hw, le_rfl,
      ⟨fun _ => rfl, fun h => by simp [RDEPARAM, RDEOK] at h, fun h => by simp [RDEPARAM, RDEOK] at h,
        fun b ⟨r, h, _⟩ => by simp [Out.nothing] at h, fun r r' h => by simp [Out.nothing] at h, fun _ => rfl⟩,
      by simp [Out.nothing], fun _ => Iff.rfl⟩
  | some a =>
    rw [analysisResults_eq hs (hg a rfl) (hl a rfl)]
    obtain ⟨⟨e, out, oa⟩, w2, L', h1, h2, h3⟩ := resultsProg_tri (F := True) (L := []) (s := s) (a := a) (ptr := .all)
      w w (Rel.init hw (fun _ _ => trivial))
    rw [h1]
    have hpe : L'.Perm ((out.rw.map Buf.id).toList ++ (out.rh.map Buf.id).toList ++ []) := by
      cases h3 with
      | ok _ _ _ _ _ _ _ h => exact h
      | param => exact List.Perm.refl _
      | noimg => exact List.Perm.refl _
      | nomem => exact List.Perm.refl _
    obtain ⟨f1, f2⟩ := outputs_fresh h2 hpe
    have heap : ∀ b, b ∈ w2.live ↔ b ∈ w.live ∨ out.rw.map Buf.id = some b ∨ out.rh.map Buf.id = some b := by
      intro b
      rw [h2.live b, hpe.mem_iff]
      simp
    have hf : ∀ f, f ∈ w2.files ↔ f ∈ w.files := fun f => by rw [h2.files]
    have bad : ¬ ((Ptrs.all.rw = true ∧ Ptrs.all.cw = false) ∨ (Ptrs.all.rh = true ∧ Ptrs.all.ch = false)) := by decide
    cases h3 with
    | ok rw rh _ hb hn hx hy _ =>
      refine ⟨(_, _), w2, rfl, h2.wf, h2.next, ⟨fun h => absurd rfl h, fun _ => ⟨?_, ?_⟩, fun _ => ⟨?_, ?_⟩, f1, f2, fun h => absurd h bad⟩, heap, hf⟩
      · cases rw <;> simp [Ptrs.all] at hx ⊢
      · simp [Option.map_map]; rfl
      · cases rh <;> simp [Ptrs.all] at hy ⊢
      · simp [Option.map_map]; rfl
    | param hb => exact absurd (ptr_bad.mp hb) bad
    | noimg hb =>
      exact ⟨(_, _), w2, rfl, h2.wf, h2.next, ⟨fun _ => rfl, fun h => by simp [RDENOIMG, RDEOK] at h, fun h => by simp [RDENOIMG, RDEOK] at h,
        f1, f2, fun h => absurd h bad⟩, heap, hf⟩
    | nomem hb =>
      exact ⟨(_, _), w2, rfl, h2.wf, h2.next, ⟨fun _ => rfl, fun h => by simp [RDENOMEM, RDEOK] at h, fun h => by simp [RDENOMEM, RDEOK] at h,
        f1, f2, fun h => absurd h bad⟩, heap, hf⟩

theorem go_results {k : ℕ} (hs : Build s) (h : Holds s base st w) : Carries s base (pyStep s io fuel st (.results k)) w := by
  unfold pyStep
  simp only
  cases hk : st.analyses[k]? with
  | none => exact Carries.pure h
  | some oa =>
    simp only
    have key : ∃ v w2, analysisResults s oa .all w = some ((v.1, v.2, oa), w2) ∧ Called v w w2 := by
      refine results_held hs h.own.wf ?_ ?_
      · rintro a rfl; exact h.analyses a (List.mem_of_getElem? hk)
      · rintro a rfl b hb
        exact ((h.pickAnalysis hk).live _).mpr (Or.inr (List.mem_append_left _ hb))
    obtain ⟨v, w2, h4, h5⟩ := key
    obtain ⟨w', h6, h7⟩ := pyFinish_run (o := none) (own0 h) h5
    have e : pyResults s oa w = some (answer v, w') := by
      unfold pyResults
      exact (M.bind_some h4).trans h6
    exact Carries.bind e (Carries.pure (h.same h7))

theorem go_destroy {k : ℕ} (h : Holds s base st w) : Carries s base (pyStep s io fuel st (.destroy k)) w := by
  unfold pyStep
  simp only
  cases hk : st.analyses[k]? with
  | none => exact Carries.pure h
  | some oa =>
    simp only
    cases oa with
    | none =>
      refine Carries.bind (a := ()) (w1 := w) rfl ?_
      rw [set_same hk]
      exact Carries.pure h
    | some a =>
      obtain ⟨_, w1, L1, S1, e1, ow1, rfl, rfl⟩ := Act.run (Act.ofTri (destroyAnalysis_tri (List.Perm.refl _))) (h.pickAnalysis hk)
      refine Carries.bind e1 ?_
      exact Carries.pure (h.setAnalysis hk (by rintro _ hx; cases hx) ow1)

theorem go_resdetect {j : ℕ} {m : Option String} {d : PyDict} (hs : Build s) (h : Holds s base st w)
    (hf : fair s io fuel st (.resdetect j m d) w = true) : Carries s base (pyStep s io fuel st (.resdetect j m d)) w := by
  unfold pyStep
  simp only
  cases hj : st.bufs[j]? with
  | none => exact Carries.pure h
  | some b =>
    simp only
    cases hz : b.size with
    | none => exact Carries.pure h
    | some z =>
      obtain ⟨wd, ht, n⟩ := z
      simp only [fair, hj, hz, keeps, Bool.or_eq_true, decide_eq_true_eq] at hf
      refine Carries.bind (pySamples_run h hj) ?_
      have key : ∃ r w', pyResdetect s (b.data.map Buf.data) n wd ht (pyMethod m) d w = some (r, w') ∧ Own True w [] [] w' := by
        unfold pyResdetect
        by_cases hd : d.unknown = true
        · rw [M.bind_some ((C51_python_partial (c := s.cfg) (w := w)).1 hd)]
          exact ⟨_, w, rfl, own0 h⟩
        · obtain ⟨q, w1, h1, h2, h3⟩ := pyParameters_own (F := True) hs (by simpa using hd) h.own.wf (fun _ _ => trivial)
          obtain ⟨v, w2, h4, h5⟩ := resdetect_called hs (pyMethod_valid m) h2 (hf.imp_right Or.inl) (image := b.data.map Buf.data) (n := pySize s.cfg n) (by
            intro im him
            obtain ⟨p, hp, rfl⟩ := Option.map_eq_some_iff.mp him
            obtain ⟨wd', ht', n', g1, g2, g3, _⟩ := h.bufs b (List.mem_of_getElem? hj) p hp
            rw [hz] at g1
            cases g1
            exact ⟨g2, g3⟩) h3.wf
          obtain ⟨w', h6, h7⟩ := pyFinish_run h3 h5
          rw [M.bind_some h1]
          exact ⟨_, w', (M.bind_some h4).trans h6, h7⟩
      obtain ⟨r, w', e, ow⟩ := key
      exact Carries.bind e (Carries.pure (h.same ow))

theorem go_resdetectFile {fn : List UInt8} {ft : Option (List UInt8)} {m : Option String} {d : PyDict} (hio : io.Contract s.cfg) (hs : Build s)
    (h : Holds s base st w) (hf : fair s io fuel st (.resdetectFile fn ft m d) w = true) :
    Carries s base (pyStep s io fuel st (.resdetectFile fn ft m d)) w := by
  simp only [fair, Bool.and_eq_true, decide_eq_true_eq] at hf
  obtain ⟨hb, hf⟩ := hf
  have key : ∃ r w', pyResdetectFile s io fuel (some fn) (pyText ft) (pyMethod m) d w = some (r, w') ∧ Own True w [] [] w' := by
    unfold pyResdetectFile
    by_cases hd : d.unknown = true
    · rw [M.bind_some ((C51_python_partial (c := s.cfg) (w := w)).1 hd)]
      exact ⟨_, w, rfl, own0 h⟩
    · obtain ⟨q, w1, h1, h2, h3⟩ := pyParameters_own (F := True) hs (by simpa using hd) h.own.wf (fun _ _ => trivial)
      rw [h1] at hf
      obtain ⟨⟨v, w2⟩, h4⟩ := Option.isSome_iff_exists.mp hf
      have h5 := (C20_file_partial hio hs (pyMethod_valid m) h2 hb h3.wf h4).elim (file_called hio hs (pyMethod_valid m) h2 h3.wf h4)
      obtain ⟨w', h6, h7⟩ := pyFinish_run h3 h5
      rw [M.bind_some h1]
      exact ⟨_, w', (M.bind_some h4).trans h6, h7⟩
  obtain ⟨r, w', e, ow⟩ := key
  unfold pyStep
  exact Carries.bind e (Carries.pure (h.same ow))

theorem go (hio : io.Contract s.cfg) (hs : Build s) (h : Holds s base st w) {op : PyOp} (hf : fair s io fuel st op w = true) :
    Carries s base (pyStep s io fuel st op) w := by
  cases op with
  | buffer => exact Carries.pure (h.addBuf (b := {}) (own0 h) (by rintro _ hx; cases hx))
  | dimensions => exact go_dimensions h hf
  | readImage => exact go_readImage hio h hf
  | image => exact go_image hio h hf
  | readFrame => exact go_readFrame h hf
  | seek => exact go_seek h hf
  | closeImage => exact go_closeImage h
  | closeBuffer => exact go_closeBuffer h
  | item => exact go_item h hf
  | analysis => exact go_analysis hs h hf
  | analyze => exact go_analyze hs h hf
  | analyzeList => exact go_analyzeList hs h hf
  | results => exact go_results hs h
  | destroy => exact go_destroy h
  | resdetect => exact go_resdetect hs h hf
  | resdetectFile => exact go_resdetectFile hio hs h hf

/-- A program of fair statements. -/
theorem runs (hio : io.Contract s.cfg) (hs : Build s) (ops : List PyOp) : ∀ {st : PyState} {w : World}, Holds s base st w →
    fairly s io fuel st ops w = true → ∃ obs st' w', pyRun s io fuel st ops w = some ((obs, st'), w') ∧ Holds s base st' w' := by
  induction ops with
  | nil => intro st w h _; exact ⟨[], st, w, rfl, h⟩
  | cons op ops ih =>
    intro st w h hf
    simp only [fairly, Bool.and_eq_true] at hf
    obtain ⟨o, st1, w1, e1, h1⟩ := go hio hs h hf.1
    have hf2 := hf.2
    rw [e1] at hf2
    obtain ⟨obs, st', w', e2, h2⟩ := ih h1 hf2
    refine ⟨o :: obs, st', w', ?_, h2⟩
    unfold pyRun
    rw [M.bind_some e1]
    simp only
    rw [M.bind_some e2]
    rfl

/-- Closing is always fair. -/
theorem fair_closes {op : PyOp} (h : closes op = true) : fair s io fuel st op w = true := by
  cases op <;> first | rfl | cases h

/-- What closing leaves: each object that was closed is empty and stays empty. -/
structure Shut (ops : List PyOp) (st st' : PyState) : Prop where
  bufs : st'.bufs.length = st.bufs.length
  images : st'.images.length = st.images.length
  analyses : st'.analyses.length = st.analyses.length
  buf : ∀ (j : ℕ) b, st'.bufs[j]? = some b → b.data ≠ none → PyOp.closeBuffer j ∉ ops ∧ ∃ b0, st.bufs[j]? = some b0 ∧ b0.data ≠ none
  image : ∀ (k : ℕ) i, st'.images[k]? = some (some i) → PyOp.closeImage k ∉ ops ∧ ∃ i0, st.images[k]? = some (some i0)
  analysis : ∀ (k : ℕ) a, st'.analyses[k]? = some (some a) → PyOp.destroy k ∉ ops ∧ ∃ a0, st.analyses[k]? = some (some a0)

theorem shut_step {op : PyOp} {o : Raises PyVal} {st' : PyState} {w' : World} (hc : closes op = true)
    (h : pyStep s io fuel st op w = some ((o, st'), w')) : Shut [op] st st' := by
  cases op <;> try cases hc
  case closeImage k =>
    unfold pyStep at h
    simp only at h
    cases hk : st.images[k]? with
    | none =>
      rw [hk] at h
      cases h
      refine ⟨rfl, rfl, rfl, fun j b h1 h2 => ⟨by simp, b, h1, h2⟩, fun j i h1 => ⟨?_, i, h1⟩, fun j a h1 => ⟨by simp, a, h1⟩⟩
      rintro hx
      simp only [List.mem_singleton, PyOp.closeImage.injEq] at hx
      rw [hx, hk] at h1; cases h1
    | some i =>
      rw [hk] at h
      obtain ⟨_, w1, e1, e2⟩ := M.bind_eq_some.mp h
      cases e2
      refine ⟨rfl, by simp, rfl, fun j b h1 h2 => ⟨by simp, b, h1, h2⟩, fun j i h1 => ?_, fun j a h1 => ⟨by simp, a, h1⟩⟩
      rw [List.getElem?_set] at h1
      split_ifs at h1 with h2 <;> first | cases h1 | exact ⟨by simpa using fun hx => h2 hx.symm, i, h1⟩
  case closeBuffer k =>
    unfold pyStep at h
    simp only at h
    cases hk : st.bufs[k]? with
    | none =>
      rw [hk] at h
      cases h
      refine ⟨rfl, rfl, rfl, fun j b h1 h2 => ⟨?_, b, h1, h2⟩, fun j i h1 => ⟨by simp, i, h1⟩, fun j a h1 => ⟨by simp, a, h1⟩⟩
      rintro hx
      simp only [List.mem_singleton, PyOp.closeBuffer.injEq] at hx
      rw [hx, hk] at h1; cases h1
    | some b =>
      rw [hk] at h
      obtain ⟨b', w1, e1, e2⟩ := M.bind_eq_some.mp h
      cases e2
      have hb : b'.data = none := by
        unfold PyBuf.close at e1
        obtain ⟨_, _, _, e3⟩ := M.bind_eq_some.mp e1
        cases e3
        rfl
      refine ⟨by simp, rfl, rfl, fun j b h1 h2 => ?_, fun j i h1 => ⟨by simp, i, h1⟩, fun j a h1 => ⟨by simp, a, h1⟩⟩
      rw [List.getElem?_set] at h1
      split_ifs at h1 with h3
      · cases h1; exact absurd hb h2
      · exact ⟨by simpa using fun hx => h3 hx.symm, b, h1, h2⟩
  case destroy k =>
    unfold pyStep at h
    simp only at h
    cases hk : st.analyses[k]? with
    | none =>
      rw [hk] at h
      cases h
      refine ⟨rfl, rfl, rfl, fun j b h1 h2 => ⟨by simp, b, h1, h2⟩, fun j i h1 => ⟨by simp, i, h1⟩, fun j a h1 => ⟨?_, a, h1⟩⟩
      rintro hx
      simp only [List.mem_singleton, PyOp.destroy.injEq] at hx
      rw [hx, hk] at h1; cases h1
    | some i =>
      rw [hk] at h
      obtain ⟨_, w1, e1, e2⟩ := M.bind_eq_some.mp h
      cases e2
      refine ⟨rfl, rfl, by simp, fun j b h1 h2 => ⟨by simp, b, h1, h2⟩, fun j i h1 => ⟨by simp, i, h1⟩, fun j a h1 => ?_⟩
      rw [List.getElem?_set] at h1
      split_ifs at h1 with h2 <;> first | cases h1 | exact ⟨by simpa using fun hx => h2 hx.symm, a, h1⟩

/-- A program that only closes. -/
theorem runs_closing (hio : io.Contract s.cfg) (hs : Build s) (ops : List PyOp) : ∀ {st : PyState} {w : World}, Holds s base st w →
    (∀ op ∈ ops, closes op = true) →
    ∃ obs st' w', pyRun s io fuel st ops w = some ((obs, st'), w') ∧ Holds s base st' w' ∧ Shut ops st st' := by
  induction ops with
  | nil =>
    intro st w h _
    exact ⟨[], st, w, rfl, h, rfl, rfl, rfl, fun j b h1 h2 => ⟨by simp, b, h1, h2⟩, fun j i h1 => ⟨by simp, i, h1⟩, fun j a h1 => ⟨by simp, a, h1⟩⟩
  | cons op ops ih =>
    intro st w h hc
    have hop := hc op (by simp)
    obtain ⟨o, st1, w1, e1, h1⟩ := go (fuel := fuel) hio hs h (fair_closes hop)
    obtain ⟨obs, st', w', e2, h2, h3⟩ := ih h1 (fun x hx => hc x (List.mem_cons_of_mem _ hx))
    have h0 := shut_step hop e1
    refine ⟨o :: obs, st', w', ?_, h2, h3.bufs.trans h0.bufs, h3.images.trans h0.images, h3.analyses.trans h0.analyses, ?_, ?_, ?_⟩
    · unfold pyRun
      rw [M.bind_some e1]
      simp only
      rw [M.bind_some e2]
      rfl
    · intro j b g1 g2
      obtain ⟨n1, b1, g3, g4⟩ := h3.buf j b g1 g2
      obtain ⟨n0, g5⟩ := h0.buf j b1 g3 g4
      exact ⟨by simpa using ⟨by simpa using n0, n1⟩, g5⟩
    · intro j b g1
      obtain ⟨n1, b1, g3⟩ := h3.image j b g1
      obtain ⟨n0, g5⟩ := h0.image j b1 g3
      exact ⟨by simpa using ⟨by simpa using n0, n1⟩, g5⟩
    · intro j b g1
      obtain ⟨n1, b1, g3⟩ := h3.analysis j b g1
      obtain ⟨n0, g5⟩ := h0.analysis j b1 g3
      exact ⟨by simpa using ⟨by simpa using n0, n1⟩, g5⟩

/-- After all objects are closed, nothing is held. -/
theorem Shut.nothing {ops : List PyOp} {st' : PyState} (h : Shut ops st st') (hc : ClosesAll st ops) :
    st'.bufs.flatMap bufBlocks ++ (st'.images.flatMap imgBlocks ++ st'.analyses.flatMap anaBlocks) = [] ∧ st'.images.flatMap imgFiles = [] := by
  have hi : ∀ i ∈ st'.images, i = none := by
    intro i hi
    obtain ⟨k, hk, rfl⟩ := List.mem_iff_getElem.mp hi
    cases hx : st'.images[k] with
    | none => rfl
    | some i => exact absurd (hc.2.2.1 k (by rw [← h.images]; exact hk)) (h.image k i (by rw [List.getElem?_eq_getElem hk, hx])).1
  have hb : ∀ b ∈ st'.bufs, b.data = none := by
    intro b hb
    obtain ⟨k, hk, rfl⟩ := List.mem_iff_getElem.mp hb
    by_contra hx
    exact absurd (hc.2.1 k (by rw [← h.bufs]; exact hk)) (h.buf k _ (List.getElem?_eq_getElem hk) hx).1
  have ha : ∀ a ∈ st'.analyses, a = none := by
    intro i hi
    obtain ⟨k, hk, rfl⟩ := List.mem_iff_getElem.mp hi
    cases hx : st'.analyses[k] with
    | none => rfl
    | some i => exact absurd (hc.2.2.2 k (by rw [← h.analyses]; exact hk)) (h.analysis k i (by rw [List.getElem?_eq_getElem hk, hx])).1
  refine ⟨?_, ?_⟩
  · simp only [List.append_eq_nil_iff, List.flatMap_eq_nil_iff]
    refine ⟨fun b h => ?_, fun i h => ?_, fun a h => ?_⟩
    · simp [bufBlocks, hb b h]
    · rw [hi i h]; rfl
    · rw [ha a h]; rfl
  · simp only [List.flatMap_eq_nil_iff]
    intro i h
    rw [hi i h]; rfl

theorem Holds.held (h : Holds s base st w) (b : ℕ) : b ∈ w.live ↔ b ∈ base.live ∨ b ∈ PyState.held st := by
  rw [h.own.live b]
  have h1 : ∀ a ∈ st.analyses, (b ∈ anaBlocks a ↔ b ∈ (match a with | none => [] | some a => owned a)) := by
    intro a ha
    cases a with
    | none => exact Iff.rfl
    | some a => exact ⟨blocks_owned b, (h.analyses a ha).owned_blocks b⟩
  unfold PyState.held
  simp only [List.mem_append, List.mem_flatMap]
  refine or_congr Iff.rfl ?_
  rw [or_assoc]
  refine or_congr Iff.rfl (or_congr ?_ (exists_congr fun a => and_congr_right fun ha => h1 a ha))
  refine exists_congr fun i => and_congr_right fun _ => ?_
  cases i with
  | none => exact Iff.rfl
  | some i => rfl

end Verif
