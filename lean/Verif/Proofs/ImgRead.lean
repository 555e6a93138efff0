import Verif.Proofs.Bits
import Verif.Proofs.CliRun
import Verif.Proofs.PfmFormat

/-! What imgread writes. -/

namespace Verif

open Spec

variable {s : Sys} {io : Io} {v : CliEnv} {r : Reader} {Ok : Ctx → ℕ → ℕ → Prop} {U F : Prop} {L S : List ℕ} {W H : ℕ} {i : RDImage} {x : Ctx}

/-! ## The frames of the built-in readers consist of floats -/

theorem chunks4_four : ∀ {l b : List UInt8}, b ∈ chunks4 l → b.length = 4
  | a :: b :: c :: d :: l, x, h => by
    simp only [chunks4, List.mem_cons] at h
    rcases h with rfl | h
    · rfl
    · exact chunks4_four h
  | [], _, h => by simp [chunks4] at h
  | [_], _, h => by simp [chunks4] at h
  | [_, _], _, h => by simp [chunks4] at h
  | [_, _, _], _, h => by simp [chunks4] at h

theorem isFloat_bytes {b : List UInt8} (h : b.length = 4) : IsFloat (floatOfBits (b.foldl (fun n d => 256 * n + d.toNat) 0)) := by
  match b, h with
  | [p, q, r, t], _ =>
    refine ⟨_, ?_, rfl⟩
    have := p.toNat_lt; have := q.toNat_lt; have := r.toNat_lt; have := t.toNat_lt
    simp only [List.foldl_cons, List.foldl_nil]
    omega

theorem isFloat_native (c : Cfg) {b : List UInt8} (h : b.length = 4) : IsFloat (nativeFloat c b) := by
  unfold nativeFloat
  split
  · exact isFloat_bytes (by rw [List.length_reverse]; exact h)
  · exact isFloat_bytes h

theorem isFloat_pfmVal (c : Cfg) (swap : Bool) (n : ℕ) (l : List UInt8) : IsFloat (pfmVal c swap n l) := by
  unfold pfmVal
  have h : ∀ x ∈ (chunks4 (l.take (4 * n))).map (fun b => nativeFloat c (if swap then b.reverse else b)), IsFloat x := by
    intro x hx
    obtain ⟨b, hb, rfl⟩ := List.mem_map.mp hx
    have := chunks4_four hb
    exact isFloat_native c (by split <;> simp [this])
  generalize (chunks4 (l.take (4 * n))).map (fun b => nativeFloat c (if swap then b.reverse else b)) = m at h
  unfold pfmValue
  split
  · exact h _ (by simp)
  · exact isFloat_div _ _
  · exact isFloat_zero _

theorem isFloat_pfmVals (c : Cfg) (swap : Bool) (n : ℕ) {k : ℕ} {l : List UInt8} : ∀ x ∈ pfmVals c swap n k l, IsFloat x := by
  induction k generalizing l with
  | zero => simp [pfmVals]
  | succ k ih =>
    intro x hx
    simp only [pfmVals, List.mem_cons] at hx
    rcases hx with rfl | hx
    · exact isFloat_pfmVal _ _ _ _
    · exact ih x hx

theorem isFloat_pfmFrame (c : Cfg) (swap : Bool) (n w : ℕ) {k : ℕ} {l : List UInt8} : ∀ x ∈ pfmFrame c swap n w k l, IsFloat x := by
  induction k generalizing l with
  | zero => simp [pfmFrame]
  | succ k ih =>
    intro x hx
    simp only [pfmFrame, List.mem_append] at hx
    rcases hx with hx | hx
    · exact ih x hx
    · exact isFloat_pfmVals _ _ _ x hx

theorem step_floats {w h : ℕ} {f : List Fl} {e : RDError} {x' : Ctx} (hs : x.step s w h = some (some f, e, x')) : ∀ y ∈ f, IsFloat y := by
  cases x with
  | pgm x =>
    simp only [Ctx.step] at hs
    split at hs
    · cases hs
    · split at hs
      · cases hs
        intro y hy
        obtain ⟨b, _, rfl⟩ := List.mem_map.mp hy
        exact isFloat_div _ _
      · cases hs
  | pfm x =>
    simp only [Ctx.step] at hs
    split at hs
    · cases hs
    · split at hs
      · split at hs
        · cases hs
          exact isFloat_pfmFrame _ _ _ _
        · cases hs
      · cases hs
  | y4m x =>
    simp only [Ctx.step, Option.some.injEq, Prod.mk.injEq] at hs
    obtain ⟨h1, _⟩ := hs
    split at h1
    · cases h1
      intro y hy
      obtain ⟨j, _, rfl⟩ := List.mem_map.mp hy
      exact isFloat_div _ _
    · cases h1
  | _ => cases hs

/-! ## The bytes written are a PFM -/

theorem ofDigits_toUInt8 {l : List ℕ} (h : ∀ d ∈ l, d < 10) :
    (l.map (fun d => (48 + d).toUInt8)).map (fun b => b.toNat - 48) = l := by
  induction l with
  | nil => rfl
  | cons d l ih =>
    have hd := h d (by simp)
    simp only [List.map_cons, ih (fun d hd => h d (by simp [hd])), List.cons.injEq, and_true]
    have : (48 + d).toUInt8.toNat = 48 + d := by
      rw [Nat.toUInt8, UInt8.toNat_ofNat']
      exact Nat.mod_eq_of_lt (by omega)
    omega

theorem printZu_numeral (n : ℕ) : Numeral n (printZu n) := by
  unfold printZu
  by_cases h0 : n = 0
  · subst h0
    rw [if_pos rfl]
    exact ⟨by simp, by intro b hb; simp only [List.mem_singleton] at hb; subst hb; decide, by decide⟩
  · rw [if_neg h0]
    have hd : ∀ d ∈ Nat.digits 10 n, d < 10 := fun d hd => Nat.digits_lt_base (by norm_num) hd
    refine ⟨?_, ?_, ?_⟩
    · simpa [Nat.digits_eq_nil_iff_eq_zero] using h0
    · intro b hb
      obtain ⟨d, hd', rfl⟩ := List.mem_map.mp hb
      have := hd d (by simpa using hd')
      have e : (48 + d).toUInt8.toNat = 48 + d := by
        rw [Nat.toUInt8, UInt8.toNat_ofNat']
        exact Nat.mod_eq_of_lt (by omega)
      omega
    · unfold value
      rw [← List.map_reverse, List.reverse_reverse, ofDigits_toUInt8 hd, Nat.ofDigits_digits]

/-- The header imgread writes. -/
def imgHead (w h : ℕ) : List UInt8 := cs "Pf\n" ++ printZu w ++ [ch ' '] ++ printZu h ++ cs "\n-1.0\n"

theorem imgHead_pfm (w h : ℕ) : PfmHead w h false true (imgHead w h) := by
  have e : imgHead w h = ch 'P' :: (if false = true then ch 'F' else ch 'f') ::
      (cs "\n" ++ (comments [] ++ ([] ++ (printZu w ++ (cs " " ++ (printZu h ++ (cs "\n" ++ (cs "-1.0" ++ [ch '\n'])))))))) := by
    simp only [imgHead, comments, List.map_nil, List.flatten_nil, List.nil_append, List.append_assoc]
    rfl
  rw [e]
  refine PfmHead.mk ?_ ?_ ?_ ?_ (printZu_numeral w) ?_ ?_ (printZu_numeral h) ?_ ?_ ?_ ?_ <;> (try simp only [Blank, OneLine]) <;> try decide
  refine Scale.frac (sign := cs "-") (i := cs "1") (f := cs "0") ?_ ?_ ?_ ?_ ?_ ?_ <;> (try simp only [Digits]) <;> try decide
  · rw [show value (cs "1" ++ cs "0") = 10 by decide, show (cs "0").length = 1 by decide]
    norm_num
  · rw [show value (cs "1" ++ cs "0") = 10 by decide, show (cs "0").length = 1 by decide]
    norm_num

/-- The rows of a frame. -/
def rowsOf (w h : ℕ) (f : List Fl) : List (List Fl) := (List.range h).map (fun j => (f.drop (j * w)).take w)

theorem rowsOf_flatten {w h : ℕ} {f : List Fl} (hl : f.length = w * h) : (rowsOf w h f).flatten = f := by
  induction h generalizing f with
  | zero => simp only [Nat.mul_zero, List.length_eq_zero_iff] at hl; subst hl; rfl
  | succ h ih =>
    have h1 : rowsOf w (h + 1) f = f.take w :: rowsOf w h (f.drop w) := by
      unfold rowsOf
      rw [List.range_succ_eq_map, List.map_cons, List.map_map]
      simp only [Nat.zero_mul, List.drop_zero, List.cons.injEq, true_and]
      refine List.map_congr_left (fun j _ => ?_)
      simp only [Function.comp, List.drop_drop, Nat.succ_eq_add_one, Nat.add_mul, Nat.one_mul, Nat.add_comm w]
    rw [h1, List.flatten_cons, ih (by rw [List.length_drop, hl, Nat.mul_succ]; omega), List.take_append_drop]

/-- The image imgread writes for a frame. -/
def imageOf (w h : ℕ) (f : List Fl) : PfmImage := ⟨false, true, (rowsOf w h f).map (fun r => r.map (fun y => .gray (bitsOfFloat y)))⟩

theorem imageOf_ok {w h : ℕ} {f : List Fl} (hl : f.length = w * h) (hf : ∀ y ∈ f, IsFloat y) : (imageOf w h f).Ok w h := by
  refine ⟨by simp [imageOf, rowsOf], ?_⟩
  intro r hr
  simp only [imageOf, rowsOf, List.map_map, List.mem_map, List.mem_range, Function.comp] at hr
  obtain ⟨j, hj, rfl⟩ := hr
  have hb : (j + 1) * w ≤ f.length := by rw [hl, Nat.mul_comm w]; exact Nat.mul_le_mul_right _ hj
  rw [Nat.add_mul, Nat.one_mul] at hb
  refine ⟨by rw [List.length_map, List.length_take, List.length_drop]; omega, ?_⟩
  intro p hp
  obtain ⟨y, hy, rfl⟩ := List.mem_map.mp hp
  exact ⟨rfl, (floatOfBits_bits (hf y (List.mem_of_mem_drop (List.mem_of_mem_take hy)))).1⟩

theorem imageOf_samples {w h : ℕ} {f : List Fl} (hl : f.length = w * h) (hf : ∀ y ∈ f, IsFloat y) : (imageOf w h f).samples = f := by
  conv_rhs => rw [← rowsOf_flatten hl]
  unfold PfmImage.samples imageOf
  simp only [List.map_map]
  congr 1
  conv_rhs => rw [← List.map_id (rowsOf w h f)]
  refine List.map_congr_left (fun r hr => ?_)
  simp only [Function.comp, List.map_map, id]
  conv_rhs => rw [← List.map_id r]
  refine List.map_congr_left (fun y hy => ?_)
  have hy' : y ∈ f := by rw [← rowsOf_flatten hl]; exact List.mem_flatten.mpr ⟨r, hr, hy⟩
  exact (floatOfBits_bits (hf y hy')).2

theorem imgRows_eq {c : Cfg} {f : List Fl} {w h k : ℕ} (hc : c.littleEndian = true) (hl : f.length = w * h) (hsz : w * h ≤ c.sizeMax) (hk : k ≤ h) :
    imgRows c f w k = some (((rowsOf w k f).reverse.map (fun r => (r.map (fun y => encode true (bitsOfFloat y))).flatten)).flatten) := by
  induction k with
  | zero => rfl
  | succ k ih =>
    have hb : (k + 1) * w ≤ w * h := by rw [Nat.mul_comm w]; exact Nat.mul_le_mul_right _ hk
    rw [Nat.add_mul, Nat.one_mul] at hb
    unfold imgRows
    have e : c.sz (k * w) = k * w := by unfold Cfg.sz; rw [Nat.mod_eq_of_lt (by omega)]
    rw [e, ih (by omega)]
    simp only [Option.bind_eq_bind, Option.bind_some, Option.pure_def]
    rw [if_neg (by omega)]
    have hr : rowsOf w (k + 1) f = rowsOf w k f ++ [(f.drop (k * w)).take w] := by
      unfold rowsOf
      rw [List.range_succ, List.map_append, List.map_singleton]
    rw [hr, List.reverse_append, List.reverse_singleton, List.singleton_append, List.map_cons, List.flatten_cons]
    have hn : nativeBytes c = fun y => encode true (bitsOfFloat y) := by
      funext y
      unfold nativeBytes encode bigEndian
      rw [hc]
    rw [hn]

theorem imgRows_data {c : Cfg} {f : List Fl} {w h : ℕ} (hc : c.littleEndian = true) (hl : f.length = w * h) (hsz : w * h ≤ c.sizeMax) :
    imgRows c f w h = some (imageOf w h f).data := by
  rw [imgRows_eq hc hl hsz le_rfl]
  simp only [PfmImage.data, imageOf, ← List.map_reverse, List.map_map]
  congr 2
  refine List.map_congr_left (fun r _ => ?_)
  simp only [Function.comp, List.map_map]
  rfl

/-! ## Running it -/

theorem openOut_act {ok : Bool} : Act U F L S (openOut ok) (fun o L' S' => L' = L ∧
    ((ok = false ∧ o = none ∧ S' = S) ∨ ∃ f, ok = true ∧ o = some f ∧ S' = f.owned ++ S)) := by
  cases ok with
  | false => exact fun base w hw => Or.inr ⟨none, w, L, S, rfl, hw, rfl, Or.inl ⟨rfl, rfl, rfl⟩⟩
  | true =>
    intro base w hw
    refine Or.inr ⟨some ⟨some w.next, ⟨[], 0, false⟩⟩, { w with files := w.next :: w.files, next := w.next + 1 }, L, w.next :: S, rfl, ?_, rfl,
      Or.inr ⟨_, rfl, rfl, rfl⟩⟩
    exact
      { base_wf := hw.base_wf
        next := Nat.le_succ_of_le hw.next
        nodup := hw.nodup
        new := fun x hx => ⟨(hw.new x hx).1, Nat.lt_succ_of_lt (hw.new x hx).2⟩
        live := hw.live
        live_nodup := hw.live_nodup
        snodup := List.nodup_cons.mpr ⟨fun h => absurd (hw.snew _ h).2 (lt_irrefl _), hw.snodup⟩
        snew := by
          intro x hx
          rcases List.mem_cons.mp hx with rfl | hx
          · exact ⟨fun h => absurd (lt_of_lt_of_le (hw.base_wf.files_lt _ h) hw.next) (lt_irrefl _), Nat.lt_succ_self _⟩
          · exact ⟨(hw.snew x hx).1, Nat.lt_succ_of_lt (hw.snew x hx).2⟩
        files := by
          intro x
          show x ∈ w.next :: w.files ↔ _
          rw [List.mem_cons, hw.files x, List.mem_cons]; tauto
        files_nodup := List.nodup_cons.mpr ⟨fun h => absurd (hw.wf.files_lt _ h) (lt_irrefl _), hw.files_nodup⟩
        sched := hw.sched }

/-- What the loop of imgread writes. -/
inductive Written (W H : ℕ) : List (List Fl) → List UInt8 → Prop where
  | nil : Written W H [] []
  | cons {f : List Fl} {fs : List (List Fl)} {l : List UInt8} : f.length = W * H → (∀ y ∈ f, IsFloat y) → Written W H fs l →
      Written W H (f :: fs) (imgHead W H ++ (imageOf W H f).data ++ l)

theorem Written.file {frames : List (List Fl)} {l : List UInt8} (h : Written W H frames l) :
    ∃ images, PfmFile W H images l ∧ images.map PfmImage.samples = frames := by
  induction h with
  | nil => exact ⟨[], .nil, rfl⟩
  | cons h1 h2 _ ih =>
    obtain ⟨is, h3, h4⟩ := ih
    exact ⟨_ :: is, .cons (.mk (imageOf_ok h1 h2) (imgHead_pfm W H)) h3, by rw [List.map_cons, imageOf_samples h1 h2, h4]⟩

theorem Builtin.imgLoop_act (hc : s.cfg.littleEndian = true) {fs : Fs} (hb : Builtin s fs r Ok) {frames : List (List Fl)} {e : RDError} {out : File}
    (hi : Handle s r Ok W H i x) {buf : Buf Fl} (hl : buf.data.length = W * H) (hfr : x.frames s W H = (frames, some e)) {fuel : ℕ}
    (hfuel : frames.length < fuel) (hout : ∀ y ∈ out.owned, y ∈ S) :
    Act False F (held buf.id i x L) (x.files ++ S) (imgLoop s W H out fuel i buf) (fun v L' S' => ∃ x', v.1 = e ∧ Handle s r Ok W H v.2.1 x' ∧
      Written W H frames v.2.2.2 ∧ L' = held v.2.2.1.id v.2.1 x' L ∧ S' = x'.files ++ S) := by
  induction fuel generalizing i x buf frames with
  | zero => omega
  | succ fuel ih =>
    unfold imgLoop
    refine Act.bind (Act.weaken (hb.frame_act (F := F) (L := L) (S := S) hi (buf := buf) (off := 0) (by omega))
      (fun h => by rw [Ctx.frames_none h] at hfr; cases hfr) Iff.rfl) ?_
    rintro v L1 S1 ⟨o, e', x', data, hst, rfl, hsp, hdata, _, hi', rfl, rfl⟩
    simp only
    refine Act.bind (Act.need (Q := fun a l s' => a = _ ∧ l = held buf.id i x' L ∧ s' = x'.files ++ S) rfl ⟨rfl, rfl, rfl⟩) ?_
    rintro _ _ _ ⟨rfl, rfl, rfl⟩
    refine Act.bind (Act.need (Q := fun a l s' => a = _ ∧ l = held buf.id i x' L ∧ s' = x'.files ++ S) rfl ⟨rfl, rfl, rfl⟩) ?_
    rintro _ _ _ ⟨rfl, rfl, rfl⟩
    cases o with
    | none =>
      simp only [Option.isSome_none, Bool.not_false, if_true]
      rw [Ctx.frames_stop hst] at hfr
      cases hfr
      exact Act.pure ⟨x', rfl, hi', .nil, rfl, rfl⟩
    | some f =>
      obtain ⟨hf1, hf2, he0⟩ := hdata f rfl
      have hdf : data = f := by
        rw [hf1]; exact fill_zero (by rw [hf2, List.length_drop]; omega)
      subst hdf
      rw [Ctx.frames_next hi.within.pos hst] at hfr
      simp only [Prod.mk.injEq] at hfr
      obtain ⟨rfl, hfr2⟩ := hfr
      simp only [Option.isSome_some, Bool.not_true, Bool.false_eq_true, if_false, List.take_zero, List.nil_append]
      rw [if_neg (by simp [he0])]
      refine Act.skip (Act.touchFile (fun y hy => List.mem_append_right _ (hout y hy))) ?_
      refine Act.bind (Act.need (Q := fun a l s' => a = (imageOf W H data).data ∧ l = held buf.id i x' L ∧ s' = x'.files ++ S)
        (imgRows_data hc hf2 (by have := hi.within.2.2.2; omega)) ⟨rfl, rfl, rfl⟩) ?_
      rintro _ _ _ ⟨rfl, rfl, rfl⟩
      refine Act.bind (ih (i := { i with ctx := some x' }) hi' (buf := ⟨buf.id, data⟩) hf2 (frames := (x'.frames s W H).1) (Prod.ext rfl hfr2)
          (by simp only [List.length_cons] at hfuel; omega)) ?_
      rintro ⟨e1, i1, b1, l1⟩ _ _ ⟨x1, rfl, h2, h3, rfl, rfl⟩
      exact Act.pure ⟨x1, rfl, h2, .cons hf2 (step_floats hst) h3, rfl, rfl⟩

theorem imgEnd_act {e : RDError} {oi : Option RDImage} {ob : Option (Buf Fl)} {out : Option File} {I L1 S1 J : List ℕ}
    (he : e ≠ 0 → Printable s.cfg e) (hclose : ∀ L2 S2, Act U F (I ++ L2) (J ++ S2) (closeImage oi) (fun _ L' S' => L' = L2 ∧ S' = S2))
    (hp : L1.Perm (I ++ ((ob.map Buf.id).toList ++ L))) (hs : S1.Perm (J ++ (((out.map File.owned).getD []) ++ S))) :
    Act U F L1 S1 (imgEnd s v e oi ob out) (fun _ L' S' => L'.Perm L ∧ S' = S) := by
  unfold imgEnd
  have tail : Act U F L1 S1 (closeImage oi >>= fun _ => match out with | some f => closeFile f >>= fun _ => freeBuf ob | none => freeBuf ob)
      (fun _ L' S' => L'.Perm L ∧ S' = S) := by
    refine Act.bind ((hclose ((ob.map Buf.id).toList ++ L) (((out.map File.owned).getD []) ++ S)).of_perm hp hs) ?_
    rintro _ _ _ ⟨rfl, rfl⟩
    cases out with
    | none => exact freeBuf_act (List.Perm.refl _)
    | some f =>
      refine Act.bind (Act.closeFile (R := S) (List.Perm.refl _)) ?_
      rintro _ _ _ ⟨rfl, rfl⟩
      exact freeBuf_act (List.Perm.refl _)
  by_cases h0 : e ≠ 0
  · obtain ⟨t, ht⟩ := printable_str (he h0) v.strerror
    rw [if_pos h0]
    refine Act.bind (Act.need (Q := fun a l s' => a = some t ∧ l = L1 ∧ s' = S1) ht ⟨rfl, rfl, rfl⟩) ?_
    rintro _ _ _ ⟨rfl, rfl, rfl⟩
    refine Act.bind (Act.need (Q := fun a l s' => l = _ ∧ s' = _) rfl ⟨rfl, rfl⟩) ?_
    rintro _ _ _ ⟨rfl, rfl⟩
    exact tail
  · rw [if_neg h0]
    exact tail

/-- imgread on a file that yields frames. -/
theorem Source.imgMain_act (hc : s.cfg.littleEndian = true) {frames : List (List Fl)} {e : RDError} {name input : List UInt8} {x : Ctx} {canWrite : Bool}
    (hx : Source s io (some input) none W H frames e name r Ok x) (he : e ≠ 0 → Printable s.cfg e) {fuel : ℕ} (hfuel : frames.length < fuel) :
    Act False F L S (imgMain s io v fuel input canWrite) (fun a L' S' => L'.Perm L ∧ S' = S ∧ ((a = (RDENOMEM, none) ∧ F) ∨
      (canWrite = false ∧ a = (0, none)) ∨ ∃ file, canWrite = true ∧ a = (e, some file) ∧ Written W H frames file)) := by
  obtain ⟨hb, e1, hd, hwi, hfr⟩ := hx
  unfold imgMain
  rw [e1]
  refine Act.bind ((hb.det_act hd).weaken (by simp) Iff.rfl) ?_
  rintro o L1 S1 (⟨i, x1, ho, e1, hp1, rfl⟩ | ⟨h1, h2, rfl, rfl, h3⟩)
  · rw [if_neg (by simp [ho.error])]
    simp only [Option.some.injEq, Prod.mk.injEq, and_true] at e1
    obtain ⟨rfl, rfl, rfl⟩ := e1
    rw [Ctx.frames_erase hwi.pos] at hfr
    obtain ⟨b, hbuf⟩ := ho.buffer
    have hp' : L1.Perm (held b i x1 L) := by rw [hbuf] at hp1; exact hp1
    refine Act.of_perm ?_ hp' (List.Perm.refl _)
    refine Act.bind openOut_act ?_
    rintro _ _ _ ⟨rfl, ⟨rfl, rfl, rfl⟩ | ⟨out, rfl, rfl, rfl⟩⟩
    · simp only
      rw [ho.image, hbuf]
      refine Act.bind (imgEnd_act (L := L) (S := S) (I := i.block :: x1.blocks) (J := x1.files) (by simp) (fun L2 S2 => closeHandle_act (hb.sound F) ho.handle L2) ?_ ?_) ?_
      · simp only [held, Option.map_some, Option.toList_some]
        perm_count
      · exact List.Perm.refl _
      · rintro _ _ _ ⟨h5, rfl⟩
        exact Act.pure ⟨h5, rfl, Or.inr (Or.inl ⟨trivial, rfl⟩)⟩
    · simp only
      refine Act.of_perm (L1 := held b i x1 L) (S1 := x1.files ++ (out.owned ++ S)) ?_ (List.Perm.refl _) ?_
      · refine Act.bind (Act.need (Q := fun a l s' => a = i ∧ l = held b i x1 L ∧ s' = x1.files ++ (out.owned ++ S)) ho.image ⟨rfl, rfl, rfl⟩) ?_
        rintro i1 _ _ ⟨e1, rfl, rfl⟩
        subst i1
        refine Act.bind (Act.need (Q := fun a l s' => a = _ ∧ l = held b i x1 L ∧ s' = x1.files ++ (out.owned ++ S)) hbuf ⟨rfl, rfl, rfl⟩) ?_
        rintro b1 _ _ ⟨e1, rfl, rfl⟩
        subst b1
        refine Act.bind (hb.imgLoop_act hc (out := out) ho.handle (buf := ⟨b, List.replicate (o.width * o.height) s.env.junk⟩) (by simp) hfr hfuel
          (fun y hy => List.mem_append_left _ hy)) ?_
        rintro ⟨e2, i2, b2, l2⟩ _ _ ⟨x2, rfl, hi2, hw2, rfl, rfl⟩
        simp only at hw2
        refine Act.bind (imgEnd_act (L := L) (S := S) (I := i2.block :: x2.blocks) (J := x2.files) he (fun L2 S2 => closeHandle_act (hb.sound F) hi2 L2) ?_ ?_) ?_
        · simp only [held, Option.map_some, Option.toList_some]
          perm_count
        · exact List.Perm.refl _
        · rintro _ _ _ ⟨h5, rfl⟩
          exact Act.pure ⟨h5, rfl, Or.inr (Or.inr ⟨l2, trivial, rfl, hw2⟩)⟩
      · rw [← List.append_assoc, ← List.append_assoc]
        exact List.perm_append_comm.append_right _
  · rw [if_pos h2]
    have herr : o.error = RDENOMEM ∧ F := by
      rcases h3 with ⟨h3, h4⟩ | ⟨w, h, h3⟩ | ⟨h3, x2, w, h, h4, h5⟩
      · exact ⟨h3, h4⟩
      · simp at h3
      · simp only [Option.some.injEq, Prod.mk.injEq, and_true] at h4
        obtain ⟨rfl, rfl, rfl⟩ := h4
        exact absurd hwi h5
    rw [h1]
    simp only [Failed]
    refine Act.bind (imgEnd_act (L := L1) (S := S1) (I := []) (J := []) (fun _ => by rw [herr.1]; exact RDENOMEM_printable) (fun L2 S2 => Act.pure ⟨rfl, rfl⟩) ?_ ?_) ?_
    · exact List.Perm.refl _
    · exact List.Perm.refl _
    · rintro _ _ _ ⟨h5, rfl⟩
      exact Act.pure ⟨h5, rfl, Or.inl ⟨by rw [herr.1], herr.2⟩⟩

end Verif
