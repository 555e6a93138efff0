import Verif.Proofs.Tidy

/-! The JPEG reader. -/

namespace Verif
open Spec

namespace Act
variable {α : Type} {U F : Prop} {L S : List ℕ}

theorem enter : Act U F L S Verif.enter (fun b L' S' => L' = b :: L ∧ S' = S) := by
  intro base w hw
  refine Or.inr ⟨w.next, _, w.next :: L, S, rfl, ?_, rfl, rfl⟩
  exact
    { base_wf := hw.base_wf
      next := Nat.le_succ_of_le hw.next
      nodup := List.nodup_cons.mpr ⟨fun h => absurd (hw.new _ h).2 (lt_irrefl _), hw.nodup⟩
      new := by
        intro x hx
        rcases List.mem_cons.mp hx with rfl | hx
        · exact ⟨fun h => absurd (lt_of_lt_of_le (hw.base_wf.live_lt _ h) hw.next) (lt_irrefl _), Nat.lt_succ_self _⟩
        · exact ⟨(hw.new x hx).1, Nat.lt_succ_of_lt (hw.new x hx).2⟩
      live := by
        intro x
        show x ∈ w.next :: w.live ↔ _
        rw [List.mem_cons, hw.live x, List.mem_cons]; tauto
      live_nodup := List.nodup_cons.mpr ⟨fun h => absurd (hw.wf.live_lt _ h) (lt_irrefl _), hw.live_nodup⟩
      snodup := hw.snodup
      snew := fun x hx => ⟨(hw.snew x hx).1, Nat.lt_succ_of_lt (hw.snew x hx).2⟩
      files := hw.files
      files_nodup := hw.files_nodup
      sched := hw.sched }

theorem leave {b : ℕ} {R : List ℕ} (hp : L.Perm (b :: R)) : Act U F L S (Verif.leave b) (fun _ L' S' => L' = R ∧ S' = S) := free hp

/-- A block that may or may not be live. -/
theorem touchOr {b : ℕ} (h : b ∈ L ∨ U) : Act U F L S (Verif.touch b) (fun _ L' S' => L' = L ∧ S' = S) := by
  rcases h with h | h
  · exact touch h
  · intro base w hw
    unfold Verif.touch
    by_cases hb : b ∈ w.live
    · exact Or.inr ⟨(), w, L, S, by rw [if_pos hb], hw, rfl, rfl⟩
    · exact Or.inl ⟨by rw [if_neg hb], h⟩

theorem ub {Q : α → List ℕ → List ℕ → Prop} (h : U) : Act U F L S (M.ub : M α) Q := fun _ _ _ => Or.inl ⟨rfl, h⟩

theorem ite {c : Prop} [Decidable c] {m n : M α} {Q : α → List ℕ → List ℕ → Prop} (h1 : c → Act U F L S m Q) (h2 : ¬ c → Act U F L S n Q) :
    Act U F L S (if c then m else n) Q := by
  by_cases h : c
  · rw [if_pos h]; exact h1 h
  · rw [if_neg h]; exact h2 h

end Act

variable {α : Type} {U F : Prop} {L S : List ℕ} {lib : Jpeg} {fs : Fs} {s : Sys}

/-- The call needs the error manager. -/
def JRet.Quiet : JRet α → Prop
  | .ret talks _ => talks = false
  | .exit => False

theorem jcall_act {err jb : ℕ} {r : JRet α} (he : err ∈ L ∨ r.Quiet ∨ U) (hj : jb ∈ L ∨ r.value ≠ none ∨ U) :
    Act U F L S (jcall err jb r) (fun a L' S' => a = r.value ∧ L' = L ∧ S' = S) := by
  unfold jcall
  cases r with
  | ret talks a =>
    cases talks with
    | false =>
      show Act U F L S (Pure.pure (some a)) _
      exact Act.pure ⟨rfl, rfl, rfl⟩
    | true =>
      refine Act.skip (Act.touchOr ?_) (Act.pure ⟨rfl, rfl, rfl⟩)
      rcases he with h | h | h
      · exact Or.inl h
      · cases h
      · exact Or.inr h
  | exit =>
    refine Act.skip (Act.touchOr ?_) (Act.skip (Act.touchOr ?_) (Act.pure ⟨rfl, rfl, rfl⟩))
    · rcases he with h | h | h
      · exact Or.inl h
      · exact h.elim
      · exact Or.inr h
    · rcases hj with h | h | h
      · exact Or.inl h
      · exact absurd rfl h
      · exact Or.inr h

theorem jcall_tidy {err jb : ℕ} {r : JRet α} : Tidy (jcall err jb r) := by
  unfold jcall
  cases r with
  | ret talks a =>
    cases talks
    · exact Tidy.pure (some a)
    · exact Tidy.bind (Tidy.touch _) (fun _ => Tidy.pure _)
  | exit => exact Tidy.bind (Tidy.touch _) (fun _ => Tidy.bind (Tidy.touch _) (fun _ => Tidy.pure _))

theorem jpegClose_act {x : JpegCtx} {L' S' : List ℕ} (hL : L.Perm (x.block :: x.mem.toList ++ L')) (hS : S.Perm (x.f.owned ++ S')) :
    Act U F L S (jpegClose (some x)) (fun _ l s => l = L' ∧ s = S') := by
  unfold jpegClose
  refine Act.skip (Act.touch (hL.mem_iff.mpr (by simp))) ?_
  refine Act.bind (Act.freeOpt (R := x.block :: L') (hL.trans ?_)) ?_
  · simpa using (List.perm_middle (a := x.block) (l₁ := x.mem.toList) (l₂ := L')).symm
  rintro _ _ _ ⟨rfl, rfl⟩
  refine Act.bind (Act.closeFile hS) ?_
  rintro _ _ _ ⟨rfl, rfl⟩
  exact Act.free (List.Perm.refl _)

/-- The `jmp_buf` while it is there. -/
def Jpeg.held (lib : Jpeg) (jb : ℕ) : List ℕ := if lib.literalEnds then [] else [jb]

theorem jpegSetjmp_act : Act U F L S (jpegSetjmp lib) (fun jb L' S' => L' = lib.held jb ++ L ∧ S' = S) := by
  unfold jpegSetjmp Jpeg.held
  refine Act.bind Act.enter ?_
  rintro jb _ _ ⟨rfl, rfl⟩
  by_cases h : lib.literalEnds = true
  · simp only [h, if_true]
    refine Act.bind (Act.leave (List.Perm.refl _)) ?_
    rintro _ _ _ ⟨rfl, rfl⟩
    exact Act.pure ⟨rfl, rfl⟩
  · simp only [h]
    exact Act.pure ⟨rfl, rfl⟩

theorem jpegReturn_act {jb : ℕ} {R : List ℕ} (hp : L.Perm (lib.held jb ++ R)) :
    Act U F L S (jpegReturn lib jb) (fun _ L' S' => L' = R ∧ S' = S) := by
  unfold jpegReturn
  unfold Jpeg.held at hp
  by_cases h : lib.literalEnds = true
  · simp only [h, if_true] at hp ⊢
    exact Act.of_perm (Act.pure ⟨rfl, rfl⟩) hp (List.Perm.refl _)
  · simp only [h] at hp ⊢
    exact Act.leave hp

theorem jpegSetjmp_tidy : Tidy (jpegSetjmp lib) := by
  unfold jpegSetjmp
  refine Tidy.bind Tidy.enter (fun jb => ?_)
  simp only
  split
  · exact Tidy.bind (Tidy.free _) (fun _ => Tidy.pure _)
  · exact Tidy.pure _

theorem jpegReturn_tidy {jb : ℕ} : Tidy (jpegReturn lib jb) := by
  unfold jpegReturn
  split
  · exact Tidy.pure _
  · exact Tidy.free _

theorem jpegStart_act {err jb : ℕ} {bytes : List UInt8} (he : err ∈ L) (hj : jb ∈ L ∨ lib.startup bytes ≠ none ∨ U) :
    Act U F L S (jpegStart lib err jb bytes) (fun a L' S' => a.2 = lib.startup bytes ∧ L' = a.1.toList ++ L ∧ S' = S) := by
  unfold jpegStart
  unfold Jpeg.startup at hj ⊢
  refine Act.bind (jcall_act (Or.inl he) ?_) ?_
  · rcases hj with h | h | h
    · exact Or.inl h
    · right; left
      intro h0; rw [h0] at h; exact h rfl
    · exact Or.inr (Or.inr h)
  rintro v _ _ ⟨rfl, rfl, rfl⟩
  cases hc : lib.create.value with
  | none => exact Act.pure ⟨rfl, rfl, rfl⟩
  | some v =>
    rw [hc] at hj
    simp only
    refine Act.bind Act.enter ?_
    rintro mem _ _ ⟨rfl, rfl⟩
    refine Act.bind (jcall_act (Or.inl (List.mem_cons_of_mem _ he)) ?_) ?_
    · rcases hj with h | h | h
      · exact Or.inl (List.mem_cons_of_mem _ h)
      · right; left
        intro h0; rw [h0] at h; exact h rfl
      · exact Or.inr (Or.inr h)
    rintro v _ _ ⟨rfl, rfl, rfl⟩
    cases hh : (lib.header bytes).value with
    | none => exact Act.pure ⟨rfl, rfl, rfl⟩
    | some st =>
      rw [hh] at hj
      simp only at hj ⊢
      refine Act.bind (jcall_act (Or.inl (List.mem_cons_of_mem _ he)) ?_) ?_
      · rcases hj with h | h | h
        · exact Or.inl (List.mem_cons_of_mem _ h)
        · exact Or.inr (Or.inl h)
        · exact Or.inr (Or.inr h)
      rintro v _ _ ⟨rfl, rfl, rfl⟩
      cases (lib.start st).value with
      | none => exact Act.pure ⟨rfl, rfl, rfl⟩
      | some r => exact Act.pure ⟨rfl, rfl, rfl⟩

theorem jpegOpen_act {name : List UInt8} :
    Act (lib.literalEnds = true ∧ ∃ d k, fs.Holds name (d, k) ∧ lib.startup d = none) F L S (jpegOpen fs lib name) (fun a L' S' =>
      (a.2.2.2 = 0 ∧ (∃ x d k, a.1 = some x ∧ fs.Holds name (d, k) ∧ lib.startup d = some (x.state, a.2.1, a.2.2.1, x.recRows) ∧
        x.width = a.2.1 ∧ x.height = a.2.2.1 ∧ x.line = 0 ∧ x.eof = false ∧ L' = (Ctx.jpeg x).blocks ++ L ∧ S' = (Ctx.jpeg x).files ++ S)) ∨
      (a.2.2.2 ≠ 0 ∧ a.1 = none ∧ L' = L ∧ S' = S ∧
        ((a.2.2.2 = RDENOMEM ∧ F) ∨ (∃ e : ℕ, a.2.2.2 = -(e + 1 : ℤ) ∧ name ≠ cs "-" ∧ fs.fopen name = .inl e) ∨
         (a.2.2.2 = RDEINVAL ∧ ∃ d k, fs.Holds name (d, k) ∧ lib.startup d = none)))) := by
  unfold jpegOpen
  refine Act.bind Act.malloc ?_
  rintro r L1 S1 ⟨hS1, ⟨rfl, rfl, hF⟩ | ⟨b, rfl, rfl⟩⟩ <;> subst S1
  · exact Act.pure (Or.inr ⟨by decide, rfl, rfl, rfl, Or.inl ⟨rfl, hF⟩⟩)
  refine Act.bind Act.openFile ?_
  rintro r L1 S2 ⟨rfl, ⟨e, rfl, rfl, hn, hfo⟩ | ⟨f, d, k, rfl, hh, hst, rfl⟩⟩
  · refine Act.bind (Act.free (List.Perm.refl _)) ?_
    rintro _ _ _ ⟨rfl, rfl⟩
    exact Act.pure (Or.inr ⟨neg_ne_ok e, rfl, rfl, rfl, Or.inr (Or.inl ⟨e, rfl, hn, hfo⟩)⟩)
  · simp only
    refine Act.bind Act.enter ?_
    rintro err _ _ ⟨rfl, rfl⟩
    refine Act.bind jpegSetjmp_act ?_
    rintro jb _ _ ⟨rfl, rfl⟩
    refine Act.bind (jpegStart_act (by simp) ?_) ?_
    · by_cases hl : lib.literalEnds = true
      · by_cases h0 : lib.startup d = none
        · exact Or.inr (Or.inr ⟨hl, d, k, hh, h0⟩)
        · rw [hst]; exact Or.inr (Or.inl h0)
      · left; simp [Jpeg.held, hl]
    rintro ⟨mem, r⟩ _ _ ⟨hr, rfl, rfl⟩
    simp only [hst] at hr
    subst hr
    cases hs : lib.startup d with
    | none =>
      simp only
      refine Act.bind (jpegClose_act (L' := lib.held jb ++ err :: L) (S' := S) ?_ (List.Perm.refl _)) ?_
      · simp only; perm_count
      rintro _ _ _ ⟨rfl, rfl⟩
      refine Act.bind (jpegReturn_act (List.Perm.refl _)) ?_
      rintro _ _ _ ⟨rfl, rfl⟩
      refine Act.bind (Act.leave (List.Perm.refl _)) ?_
      rintro _ _ _ ⟨rfl, rfl⟩
      exact Act.pure (Or.inr ⟨by decide, rfl, rfl, rfl, Or.inr (Or.inr ⟨rfl, d, k, hh, hs⟩)⟩)
    | some v =>
      obtain ⟨st, w, h, rows⟩ := v
      simp only
      refine Act.bind (jpegReturn_act (R := err :: (b :: mem.toList ++ L)) ?_) ?_
      · perm_count
      rintro _ _ _ ⟨rfl, rfl⟩
      refine Act.bind (Act.leave (List.Perm.refl _)) ?_
      rintro _ _ _ ⟨rfl, rfl⟩
      exact Act.pure (Or.inl ⟨rfl, _, d, k, rfl, hh, hs, rfl, rfl, rfl, rfl, rfl, rfl⟩)

/-! ## Reading -/

theorem jpegScan_act {jb : ℕ} {x : JpegCtx} {fuel it line st : ℕ} {buf : List (Option UInt8)} (hU : U) :
    Act U F L S (jpegScan lib jb x fuel buf it line st) (fun _ L' S' => L' = L ∧ S' = S) := by
  induction fuel generalizing buf it line st with
  | zero => exact Act.ub hU
  | succ n ih =>
    unfold jpegScan
    refine Act.ite (fun _ => Act.ite (fun _ => Act.ub hU) (fun _ => ?_)) (fun _ => Act.pure ⟨rfl, rfl⟩)
    refine Act.bind (jcall_act (Or.inr (Or.inr hU)) (Or.inr (Or.inr hU))) ?_
    rintro v L1 S1 ⟨rfl, e1, e2⟩
    subst L1 S1
    cases (lib.scanlines st x.recRows).value with
    | none => exact Act.pure ⟨rfl, rfl⟩
    | some v =>
      obtain ⟨rows, st'⟩ := v
      refine Act.ite (fun _ => Act.ub hU) (fun _ => ?_)
      refine Act.bind (Act.lift (Q := fun _ l s => l = L ∧ s = S) (fun _ => hU) (fun _ _ => ⟨rfl, rfl⟩)) ?_
      rintro _ _ _ ⟨rfl, rfl⟩
      exact ih

theorem jpegConvert_spoilt {buf : List (Option UInt8)} {todo i : ℕ} {img img' : List Fl} (h : jpegConvert buf todo i img = some img') :
    Spoilt img img' (i + todo) := by
  induction todo generalizing i img with
  | zero => cases h; exact spoilt_refl _ _
  | succ n ih =>
    unfold jpegConvert at h
    simp only [Option.bind_eq_bind, Option.bind_eq_some_iff] at h
    obtain ⟨_, _, b, _, img1, h1, h2⟩ := h
    have hsp := ih h2
    unfold wr at h1
    split at h1
    · cases h1
      refine ⟨by simpa using hsp.1, ?_⟩
      have := hsp.2
      rw [show i + (n + 1) = i + 1 + n by omega, this, List.drop_set_of_lt (by omega)]
    · cases h1

theorem poke_eq {pre now : List UInt8} {n : ℕ} (h : now.length ≤ n) :
    poke (pre.map some ++ List.replicate n none) pre.length now = some ((pre ++ now).map some ++ List.replicate (n - now.length) none) := by
  unfold poke
  rw [if_pos (by simp; omega)]
  congr 1
  rw [List.take_left' (by simp), List.drop_append, List.drop_eq_nil_of_le (by simp), List.nil_append]
  simp

theorem pokeRows_eq {W : ℕ} {rows : List (List UInt8)} {pre : List UInt8} {n : ℕ} (hW : ∀ r ∈ rows, r.length = W)
    (h : rows.length * W ≤ n) :
    pokeRows W (pre.map some ++ List.replicate n none) pre.length rows =
      some ((pre ++ rows.flatten).map some ++ List.replicate (n - rows.length * W) none) := by
  induction rows generalizing pre n with
  | nil => simp [pokeRows]
  | cons r rows ih =>
    have h1 : r.length = W := hW r (by simp)
    simp only [List.length_cons, Nat.add_mul, Nat.one_mul] at h
    unfold pokeRows
    rw [poke_eq (by omega)]
    simp only [Option.bind_eq_bind, Option.bind_some]
    have h2 : pre.length + W = (pre ++ r).length := by simp [h1]
    rw [h2, ih (fun r hr => hW r (List.mem_cons_of_mem _ hr)) (by omega)]
    congr 2
    · simp
    · congr 1; simp only [List.length_cons, Nat.add_mul, Nat.one_mul]; omega

theorem flatten_length_eq {β : Type} {rows : List (List β)} {W : ℕ} (h : ∀ r ∈ rows, r.length = W) : rows.flatten.length = rows.length * W := by
  induction rows with
  | nil => simp
  | cons r rows ih =>
    rw [List.flatten_cons, List.length_append, ih (fun r hr => h r (List.mem_cons_of_mem _ hr)), h r (by simp), List.length_cons]
    ring

theorem jpegScan_delivers {jb : ℕ} {x : JpegCtx} {st : ℕ} {rows : List (List UInt8)} (hd : lib.Delivers x.recRows st rows)
    (hrec : x.recRows ≤ 2) (hW : ∀ r ∈ rows, r.length = x.width) {fuel line : ℕ} (hf : rows.length < fuel)
    (hline : line + rows.length = x.height) {pre : List UInt8} (hpre : pre.length = line * x.width) :
    Act U F L S (jpegScan lib jb x fuel (pre.map some ++ List.replicate (rows.length * x.width) none) pre.length line st)
      (fun a L' S' => (∃ st', a = some ((pre ++ rows.flatten).map some, x.height, st')) ∧ L' = L ∧ S' = S) := by
  induction hd generalizing fuel line pre with
  | done st =>
    obtain ⟨n, rfl⟩ : ∃ n, fuel = n + 1 := ⟨fuel - 1, by simp at hf; omega⟩
    unfold jpegScan
    simp only [List.length_nil, Nat.add_zero] at hline
    rw [if_neg (by omega)]
    exact Act.pure ⟨⟨st, by simp [hline]⟩, rfl, rfl⟩
  | @more st st' now later hscan hne hle hd ih =>
    obtain ⟨n, rfl⟩ : ∃ n, fuel = n + 1 := ⟨fuel - 1, by omega⟩
    have hpos : 0 < now.length := List.length_pos_iff.mpr hne
    simp only [List.length_append] at hline hf
    unfold jpegScan
    rw [if_pos (by omega), if_neg]
    swap
    · simp only [not_or, not_lt, List.length_append, List.length_map, List.length_replicate, Nat.add_mul]
      refine ⟨by omega, ?_⟩
      have h1 : (x.recRows - 1) * x.width ≤ now.length * x.width := Nat.mul_le_mul_right _ (by omega)
      omega
    refine Act.bind (jcall_act (r := lib.scanlines st x.recRows) (Or.inr (Or.inl (by rw [hscan]; rfl))) (Or.inr (Or.inl (by rw [hscan]; simp [JRet.value])))) ?_
    rintro v L1 S1 ⟨rfl, e1, e2⟩
    subst L1 S1
    rw [hscan]
    simp only [JRet.value]
    rw [if_neg (by omega), List.length_append, pokeRows_eq (fun r hr => hW r (List.mem_append_left _ hr)) (by rw [Nat.add_mul]; omega)]
    refine Act.bind (Act.lift (Q := fun a l s => a = (pre ++ now.flatten).map some ++ List.replicate (later.length * x.width) none ∧ l = L ∧ s = S)
      (by simp) ?_) ?_
    · intro a ha
      cases ha
      refine ⟨?_, rfl, rfl⟩
      rw [Nat.add_mul, Nat.add_sub_cancel_left]
    rintro _ L1 S1 ⟨rfl, e1, e2⟩
    subst L1 S1
    have hlen : (pre ++ now.flatten).length = pre.length + now.length * x.width := by
      rw [List.length_append, flatten_length_eq (fun r hr => hW r (List.mem_append_left _ hr))]
    rw [← hlen]
    refine Act.mono (ih (fun r hr => hW r (List.mem_append_right _ hr)) (fuel := n) (line := line + now.length) (by omega) (by omega) ?_) ?_
    · rw [hlen, hpre]; ring
    · rintro a L' S' ⟨⟨st'', rfl⟩, rfl, rfl⟩
      exact ⟨⟨st'', by simp⟩, rfl, rfl⟩

theorem jpegConvert_eq {bytes : List UInt8} {todo i : ℕ} {img : List Fl} (hi : i + todo = bytes.length) (hl : bytes.length ≤ img.length) :
    jpegConvert (bytes.map some) todo i img = some (fill img i ((bytes.drop i).map byteSample)) := by
  induction todo generalizing i img with
  | zero =>
    unfold jpegConvert
    rw [List.drop_eq_nil_of_le (by omega), List.map_nil, fill_nil]
  | succ n ih =>
    unfold jpegConvert
    have h1 : i < bytes.length := by omega
    rw [rd_eq (by simpa using h1)]
    simp only [Option.bind_eq_bind, Option.bind_some, List.getElem_map]
    rw [wr_some (by omega)]
    simp only [Option.bind_some]
    rw [ih (by omega) (by simpa using hl), fill_set (by omega), List.drop_eq_getElem_cons h1, List.map_cons]

theorem jpegRead_act {x : JpegCtx} {img : List Fl} {w h : ℕ} (hw : Within s.cfg w h) :
    Act True F ((Ctx.jpeg x).blocks ++ L) S (jpegRead s lib x img w h) (fun a L' S' => Spoilt img a.2.2.1 (w * h) ∧ (a.1 = true → a.2.1 = 0) ∧
      Code a.2.1 ∧ a.2.2.2.block = x.block ∧ a.2.2.2.mem = x.mem ∧ a.2.2.2.f = x.f ∧ L' = (Ctx.jpeg x).blocks ++ L ∧ S' = S) := by
  unfold jpegRead
  refine Act.skip (Act.touch (by simp [Ctx.blocks])) ?_
  refine Act.ite (fun _ => Act.pure ⟨spoilt_refl _ _, by simp, code_ok, rfl, rfl, rfl, rfl, rfl⟩) (fun _ => ?_)
  refine Act.bind Act.malloc ?_
  rintro r L1 S1 ⟨hS1, ⟨rfl, rfl, hF⟩ | ⟨b, rfl, rfl⟩⟩ <;> subst S1
  · exact Act.pure ⟨spoilt_refl _ _, by simp, code_nomem, rfl, rfl, rfl, rfl, rfl⟩
  refine Act.bind jpegSetjmp_act ?_
  rintro jb _ S1 ⟨rfl, e2⟩
  subst S1
  refine Act.bind (jpegScan_act trivial) ?_
  rintro r _ S1 ⟨rfl, e2⟩
  subst S1
  cases r with
  | none =>
    refine Act.bind (Act.free (R := lib.held jb ++ ((Ctx.jpeg x).blocks ++ L)) (by perm_count)) ?_
    rintro _ _ _ ⟨rfl, rfl⟩
    refine Act.bind (jpegReturn_act (List.Perm.refl _)) ?_
    rintro _ _ _ ⟨rfl, rfl⟩
    exact Act.pure ⟨spoilt_refl _ _, by simp, code_inval, rfl, rfl, rfl, rfl, rfl⟩
  | some v =>
    obtain ⟨buf, line, st⟩ := v
    simp only
    rw [hw.pixels]
    refine Act.bind (Act.lift (Q := fun a l s' => Spoilt img a (w * h) ∧ l = lib.held jb ++ (b :: ((Ctx.jpeg x).blocks ++ L)) ∧ s' = S)
      (fun _ => trivial) (fun a ha => ⟨by simpa using jpegConvert_spoilt ha, rfl, rfl⟩)) ?_
    rintro img' _ _ ⟨hsp, rfl, rfl⟩
    refine Act.bind (Act.free (R := lib.held jb ++ ((Ctx.jpeg x).blocks ++ L)) (by perm_count)) ?_
    rintro _ _ _ ⟨rfl, rfl⟩
    refine Act.bind (jpegReturn_act (List.Perm.refl _)) ?_
    rintro _ _ _ ⟨rfl, rfl⟩
    exact Act.pure ⟨hsp, fun _ => rfl, code_ok, rfl, rfl, rfl, rfl, rfl⟩

theorem jpegRead_delivers {x : JpegCtx} {img : List Fl} {rows : List (List UInt8)} (hw : Within s.cfg x.width x.height) (heof : x.eof = false)
    (hline : x.line = 0) (hd : lib.Delivers x.recRows x.state rows) (hrec : x.recRows ≤ 2) (hW : ∀ r ∈ rows, r.length = x.width)
    (hH : rows.length = x.height) (hl : img.length = x.width * x.height) :
    Act U False ((Ctx.jpeg x).blocks ++ L) S (jpegRead s lib x img x.width x.height) (fun a L' S' =>
      (∃ line st, a = (true, RDEOK, rows.flatten.map byteSample, { x with eof := true, line := line, state := st })) ∧
      L' = (Ctx.jpeg x).blocks ++ L ∧ S' = S) := by
  unfold jpegRead
  refine Act.skip (Act.touch (by simp [Ctx.blocks])) ?_
  rw [if_neg (by simp [heof])]
  refine Act.bind Act.malloc ?_
  rintro r L1 S1 ⟨hS1, ⟨rfl, rfl, hF⟩ | ⟨b, rfl, rfl⟩⟩ <;> subst S1
  · exact hF.elim
  refine Act.bind jpegSetjmp_act ?_
  rintro jb _ S1 ⟨rfl, e2⟩
  subst S1
  have hscan := jpegScan_delivers (U := U) (F := False) (L := lib.held jb ++ (b :: ((Ctx.jpeg x).blocks ++ L))) (S := S) (jb := jb) hd hrec hW
    (fuel := x.height + 1) (line := 0) (by omega) (by omega) (pre := []) (by simp)
  simp only [List.map_nil, List.nil_append, List.length_nil, hH] at hscan
  rw [hw.pixels, hline, Nat.mul_comm x.width x.height]
  refine Act.bind hscan ?_
  rintro _ _ S1 ⟨⟨st', rfl⟩, rfl, e2⟩
  subst S1
  simp only
  have hlen : rows.flatten.length = x.height * x.width := by rw [flatten_length_eq hW, hH]
  rw [jpegConvert_eq (by omega) (by rw [hlen, hl, Nat.mul_comm]), List.drop_zero,
    fill_zero (by rw [List.length_map, hlen, hl, Nat.mul_comm])]
  refine Act.bind (Act.lift (Q := fun a l s' => a = rows.flatten.map byteSample ∧ l = lib.held jb ++ (b :: ((Ctx.jpeg x).blocks ++ L)) ∧ s' = S)
    (by simp) (fun a ha => ⟨(Option.some.inj ha).symm, rfl, rfl⟩)) ?_
  rintro _ _ _ ⟨rfl, rfl, rfl⟩
  refine Act.bind (Act.free (R := lib.held jb ++ ((Ctx.jpeg x).blocks ++ L)) (by perm_count)) ?_
  rintro _ _ _ ⟨rfl, rfl⟩
  refine Act.bind (jpegReturn_act (List.Perm.refl _)) ?_
  rintro _ _ _ ⟨rfl, rfl⟩
  exact Act.pure ⟨⟨_, _, rfl⟩, rfl, rfl⟩

/-- Contexts of the JPEG reader. -/
def IsJpeg : Ctx → ℕ → ℕ → Prop
  | .jpeg _, _, _ => True
  | _, _, _ => False

theorem jpeg_sound (s : Sys) (fs : Fs) (lib : Jpeg) (F : Prop) : (jpegReader s fs lib).Sound s.cfg (fun _ => True) True F IsJpeg where
  opens L S name := by
    refine Act.bind (jpegOpen_act.weaken (fun _ => trivial) Iff.rfl) ?_
    rintro ⟨o, w, h, e⟩ L' S' (⟨h0, x, d, k, rfl, _, _, _, _, _, _, rfl, rfl⟩ | ⟨h0, rfl, rfl, rfl, h1⟩)
    · exact Act.pure (Or.inl ⟨h0, _, rfl, trivial, rfl, rfl⟩)
    · refine Act.pure (Or.inr (Or.inl ⟨h0, ?_, rfl, rfl, rfl⟩))
      simp only at h1 ⊢
      rcases h1 with ⟨rfl, _⟩ | ⟨e', rfl, _⟩ | ⟨rfl, _⟩
      · exact code_nomem
      · exact code_neg e'
      · exact code_inval
  reads L S x img w h hx hw hl := by
    cases x with
    | jpeg x =>
      refine Act.bind (jpegRead_act hw) ?_
      rintro ⟨r, e, img', x'⟩ L' S' ⟨h1, h2, h3, h4, h5, h6, rfl, rfl⟩
      simp only at h4 h5 h6
      exact Act.pure ⟨h1, h2, h3, trivial, by simp only [Ctx.blocks, h4, h5], by simp only [Ctx.files, h6]⟩
    | _ => exact hx.elim
  seeks L S x k p w h hx hw := by
    cases x with
    | jpeg x =>
      refine Act.bind (P := fun a L' S' => L' = (Ctx.jpeg x).blocks ++ L ∧ S' = (Ctx.jpeg x).files ++ S ∧ a.2.1 = RDEOK ∧
        a.2.2.2.block = x.block ∧ a.2.2.2.mem = x.mem ∧ a.2.2.2.f = x.f) ?_ ?_
      · unfold jpegSeek
        refine Act.skip (Act.touch (by simp [Ctx.blocks])) ?_
        exact Act.pure ⟨rfl, rfl, rfl, rfl, rfl, rfl⟩
      · rintro ⟨r, e, calls, x'⟩ L' S' ⟨rfl, rfl, h1, h2, h3, h4⟩
        simp only at h1 h2 h3 h4
        refine Act.pure ⟨fun _ => h1, ?_, trivial, ?_, ?_⟩
        · simp only [h1]; exact code_ok
        · simp only [Ctx.blocks, h2, h3]
        · simp only [Ctx.files, h4]
    | _ => exact hx.elim
  closes L S x w h hx := by
    cases x with
    | jpeg x => exact jpegClose_act (List.Perm.refl _) (List.Perm.refl _)
    | _ => exact hx.elim
  closeNull := rfl

end Verif
