import Verif.Spec.Black
import Verif.Proofs.Repeat
import Verif.Proofs.PointLemmas
import Verif.Proofs.AnyMethod

/-! # The bundled transform of a black picture

Every intermediate result is a zero; the arithmetic keeps those positive that are added to. -/

namespace Verif

open Spec

variable {S : Type}

/-- `Z` are positive zeros, `W` zeros of either sign, `T` what tables hold. -/
structure Zeros (A : Arith S) (Z W T : S → Prop) : Prop where
  weak : ∀ {x}, Z x → W x
  zero : Z A.zero
  half : T A.half
  halfOf : ∀ {x}, Z x → Z (A.mul x A.half)
  add : ∀ {x y}, Z x → W y → Z (A.add x y)
  sub : ∀ {x y}, Z x → W y → Z (A.sub x y)
  addW : ∀ {x y}, W x → W y → W (A.add x y)
  subW : ∀ {x y}, W x → W y → W (A.sub x y)
  mulW : ∀ {x y}, W x → T y → W (A.mul x y)
  neg : ∀ {x}, W x → W (A.neg x)
  load : ∀ {x}, Z x → Z (A.load x)
  store : ∀ {x}, Z x → Z (A.store x)
  tw : ∀ n k, k < n → T (A.twiddle n k).r ∧ T (A.twiddle n k).i
  stw : ∀ n k, k < n / 2 → T (A.superTwiddle n k).r ∧ T (A.superTwiddle n k).i
  shift : ∀ n k, k < n → (∀ {x}, Z x → Z (A.mul x (A.shift n k).r)) ∧ T (A.shift n k).i

/-- Both parts satisfy `P`. -/
def Both (P : S → Prop) (x : Cpx S) : Prop := P x.r ∧ P x.i

theorem loop_keeps {σ : Type} (P : ℕ → σ → Prop) {lo hi : ℕ} {body : ℕ → σ → Option σ} {s s' : σ} (hle : lo ≤ hi)
    (h : loop lo hi body s = some s') (h0 : P lo s) (hstep : ∀ i s s', lo ≤ i → i < hi → P i s → body i s = some s' → P (i + 1) s') : P hi s' := by
  obtain ⟨d, rfl⟩ := Nat.exists_eq_add_of_le hle
  clear hle
  induction d generalizing s' with
  | zero =>
    rw [loop_of_ge (by omega)] at h
    cases h
    exact h0
  | succ d ih =>
    rw [← Nat.add_assoc, loop_succ (by omega), Option.bind_eq_some_iff] at h
    obtain ⟨s1, h1, h2⟩ := h
    exact hstep (lo + d) s1 s' (Nat.le_add_right _ _) (Nat.add_lt_add_left (Nat.lt_succ_self d) lo)
      (ih h1 fun i s s' a b => hstep i s s' a (Nat.lt_trans b (Nat.add_lt_add_left (Nat.lt_succ_self d) lo))) h2

theorem loop_all {σ : Type} (P : σ → Prop) {lo hi : ℕ} {body : ℕ → σ → Option σ} {s s' : σ} (h : loop lo hi body s = some s') (h0 : P s)
    (hstep : ∀ i s s', i < hi → P s → body i s = some s' → P s') : P s' := by
  rcases Nat.le_total lo hi with hle | hle
  · exact loop_keeps (fun _ => P) hle h h0 fun i s s' _ hi => hstep i s s' hi
  · rw [loop_of_ge hle] at h
    cases h
    exact h0

theorem rd_all {α : Type} {P : α → Prop} {l : List α} {i : ℕ} {x : α} (h : rd l i = some x) (hl : ∀ x ∈ l, P x) : P x :=
  hl x (List.mem_of_getElem? h)

theorem wr_all {α : Type} {P : α → Prop} {l l' : List α} {i : ℕ} {v : α} (h : wr l i v = some l') (hl : ∀ x ∈ l, P x) (hv : P v) : ∀ x ∈ l', P x := by
  unfold wr at h
  split at h
  · cases h
    intro x hx
    rcases List.mem_or_eq_of_mem_set hx with hx | rfl
    · exact hl x hx
    · exact hv
  · cases h

section
variable {A : Arith S} {Z W T : S → Prop} (H : Zeros A Z W T) {c : Cfg} {st : FftCfg}
include H

theorem Zeros.cMul {a b : Cpx S} (ha : Both W a) (hb : Both T b) : Both W (A.cMul a b) :=
  ⟨H.subW (H.mulW ha.1 hb.1) (H.mulW ha.2 hb.2), H.addW (H.mulW ha.1 hb.2) (H.mulW ha.2 hb.1)⟩

theorem Zeros.cAdd {a b : Cpx S} (ha : Both Z a) (hb : Both W b) : Both Z (A.cAdd a b) := ⟨H.add ha.1 hb.1, H.add ha.2 hb.2⟩

theorem Zeros.cSub {a b : Cpx S} (ha : Both Z a) (hb : Both W b) : Both Z (A.cSub a b) := ⟨H.sub ha.1 hb.1, H.sub ha.2 hb.2⟩

theorem Zeros.cAddW {a b : Cpx S} (ha : Both W a) (hb : Both W b) : Both W (A.cAdd a b) := ⟨H.addW ha.1 hb.1, H.addW ha.2 hb.2⟩

theorem Zeros.cSubW {a b : Cpx S} (ha : Both W a) (hb : Both W b) : Both W (A.cSub a b) := ⟨H.subW ha.1 hb.1, H.subW ha.2 hb.2⟩

theorem Zeros.both {a : Cpx S} (ha : Both Z a) : Both W a := ⟨H.weak ha.1, H.weak ha.2⟩

theorem Zeros.twAt {k : ℕ} {t : Cpx S} (h : twAt A st k = some t) : Both T t := by
  unfold Verif.twAt at h
  split at h
  · cases h
    exact H.tw _ _ ‹_›
  · cases h

theorem Zeros.stwAt {k : ℕ} {t : Cpx S} (h : stwAt A st k = some t) : Both T t := by
  unfold Verif.stwAt at h
  split at h
  · cases h
    exact H.stw _ _ ‹_›
  · cases h

theorem Zeros.bfly2 {fstride m : ℕ} {out out' : List (Cpx S)} (h : kfBfly2 A st fstride m out = some out') (hz : ∀ x ∈ out, Both Z x) :
    ∀ x ∈ out', Both Z x := by
  unfold kfBfly2 at h
  refine loop_all (fun l => ∀ x ∈ l, Both Z x) h hz ?_
  intro k l l' _ hl hb
  simp only [Option.bind_eq_bind, Option.bind_eq_some_iff] at hb
  obtain ⟨f0, e0, f1, e1, t1, e2, l1, e3, e4⟩ := hb
  have z0 := rd_all e0 hl
  have m1 := H.cMul (H.both (rd_all e1 hl)) (H.twAt e2)
  exact wr_all e4 (wr_all e3 hl (H.cSub z0 m1)) (H.cAdd z0 m1)

theorem Zeros.bfly4 {fstride m : ℕ} {out out' : List (Cpx S)} (h : kfBfly4 A st fstride m out = some out') (hz : ∀ x ∈ out, Both Z x) :
    ∀ x ∈ out', Both Z x := by
  unfold kfBfly4 at h
  refine loop_all (fun l => ∀ x ∈ l, Both Z x) h hz ?_
  intro k l l' _ hl hb
  simp only [Option.bind_eq_bind, Option.bind_eq_some_iff] at hb
  obtain ⟨f0, e0, f1, e1, f2, e2, f3, e3, t1, u1, t2, u2, t3, u3, l1, v1, l2, v2, l3, v3, v4⟩ := hb
  have z0 := rd_all e0 hl
  have s0 := H.cMul (H.both (rd_all e1 hl)) (H.twAt u1)
  have s1 := H.cMul (H.both (rd_all e2 hl)) (H.twAt u2)
  have s2 := H.cMul (H.both (rd_all e3 hl)) (H.twAt u3)
  have s5 := H.cSub z0 s1
  have g0 := H.cAdd z0 s1
  have s3 := H.cAddW s0 s2
  have s4 := H.cSubW s0 s2
  refine wr_all v4 (wr_all v3 (wr_all v2 (wr_all v1 hl (H.cSub g0 s3)) (H.cAdd g0 s3)) ?_) ?_
  · exact ⟨H.add s5.1 s4.2, H.sub s5.2 s4.1⟩
  · exact ⟨H.sub s5.1 s4.2, H.add s5.2 s4.1⟩

theorem Zeros.bfly3 {fstride m : ℕ} {out out' : List (Cpx S)} (h : kfBfly3 A st fstride m out = some out') (hz : ∀ x ∈ out, Both Z x) :
    ∀ x ∈ out', Both Z x := by
  unfold kfBfly3 at h
  simp only [Option.bind_eq_bind, Option.bind_eq_some_iff] at h
  obtain ⟨ep, e, h⟩ := h
  have te := H.twAt e
  refine loop_all (fun l => ∀ x ∈ l, Both Z x) h hz ?_
  intro k l l' _ hl hb
  simp only [Option.bind_eq_some_iff] at hb
  obtain ⟨f0, e0, f1, e1, f2, e2, t1, u1, t2, u2, l1, v1, l2, v2, v3⟩ := hb
  have z0 := rd_all e0 hl
  have s1 := H.cMul (H.both (rd_all e1 hl)) (H.twAt u1)
  have s2 := H.cMul (H.both (rd_all e2 hl)) (H.twAt u2)
  have s3 := H.cAddW s1 s2
  have s0 := H.cSubW s1 s2
  have g1 : Z (A.sub f0.r (A.halfOf (A.cAdd (A.cMul f1 t1) (A.cMul f2 t2)).r)) := H.sub z0.1 (H.mulW s3.1 H.half)
  have g2 : Z (A.sub f0.i (A.halfOf (A.cAdd (A.cMul f1 t1) (A.cMul f2 t2)).i)) := H.sub z0.2 (H.mulW s3.2 H.half)
  have w1 := H.mulW s0.1 te.2
  have w2 := H.mulW s0.2 te.2
  refine wr_all v3 (wr_all v2 (wr_all v1 hl (H.cAdd z0 s3)) ?_) ?_
  · exact ⟨H.add g1 w2, H.sub g2 w1⟩
  · exact ⟨H.sub g1 w2, H.add g2 w1⟩

theorem Zeros.bfly5 {fstride m : ℕ} {out out' : List (Cpx S)} (h : kfBfly5 A st fstride m out = some out') (hz : ∀ x ∈ out, Both Z x) :
    ∀ x ∈ out', Both Z x := by
  unfold kfBfly5 at h
  obtain ⟨ya, ea, h⟩ := Option.bind_eq_some_iff.mp h
  obtain ⟨yb, eb, h⟩ := Option.bind_eq_some_iff.mp h
  have ta := H.twAt ea
  have tb := H.twAt eb
  refine loop_all (fun l => ∀ x ∈ l, Both Z x) h hz ?_
  intro k l l' _ hl hb
  obtain ⟨f0, e0, hb⟩ := Option.bind_eq_some_iff.mp hb
  obtain ⟨f1, e1, hb⟩ := Option.bind_eq_some_iff.mp hb
  obtain ⟨f2, e2, hb⟩ := Option.bind_eq_some_iff.mp hb
  obtain ⟨f3, e3, hb⟩ := Option.bind_eq_some_iff.mp hb
  obtain ⟨f4, e4, hb⟩ := Option.bind_eq_some_iff.mp hb
  obtain ⟨t1, u1, hb⟩ := Option.bind_eq_some_iff.mp hb
  obtain ⟨t2, u2, hb⟩ := Option.bind_eq_some_iff.mp hb
  obtain ⟨t3, u3, hb⟩ := Option.bind_eq_some_iff.mp hb
  obtain ⟨t4, u4, hb⟩ := Option.bind_eq_some_iff.mp hb
  obtain ⟨l1, v1, hb⟩ := Option.bind_eq_some_iff.mp hb
  obtain ⟨l2, v2, hb⟩ := Option.bind_eq_some_iff.mp hb
  obtain ⟨l3, v3, hb⟩ := Option.bind_eq_some_iff.mp hb
  obtain ⟨l4, v4, hb⟩ := Option.bind_eq_some_iff.mp hb
  have v5 := hb
  have z0 := rd_all e0 hl
  have s1 := H.cMul (H.both (rd_all e1 hl)) (H.twAt u1)
  have s2 := H.cMul (H.both (rd_all e2 hl)) (H.twAt u2)
  have s3 := H.cMul (H.both (rd_all e3 hl)) (H.twAt u3)
  have s4 := H.cMul (H.both (rd_all e4 hl)) (H.twAt u4)
  have s7 := H.cAddW s1 s4
  have s10 := H.cSubW s1 s4
  have s8 := H.cAddW s2 s3
  have s9 := H.cSubW s2 s3
  have g5 := And.intro (H.add (H.add z0.1 (H.mulW s7.1 ta.1)) (H.mulW s8.1 tb.1)) (H.add (H.add z0.2 (H.mulW s7.2 ta.1)) (H.mulW s8.2 tb.1))
  have g6 := And.intro (H.addW (H.mulW s10.2 ta.2) (H.mulW s9.2 tb.2)) (H.subW (H.neg (H.mulW s10.1 ta.2)) (H.mulW s9.1 tb.2))
  have g11 := And.intro (H.add (H.add z0.1 (H.mulW s7.1 tb.1)) (H.mulW s8.1 ta.1)) (H.add (H.add z0.2 (H.mulW s7.2 tb.1)) (H.mulW s8.2 ta.1))
  have g12 := And.intro (H.addW (H.neg (H.mulW s10.2 tb.2)) (H.mulW s9.2 ta.2)) (H.subW (H.mulW s10.1 tb.2) (H.mulW s9.1 ta.2))
  refine wr_all v5 (wr_all v4 (wr_all v3 (wr_all v2 (wr_all v1 hl ?_) ?_) ?_) ?_) ?_
  · exact ⟨H.add z0.1 (H.addW s7.1 s8.1), H.add z0.2 (H.addW s7.2 s8.2)⟩
  · exact ⟨H.sub g5.1 g6.1, H.sub g5.2 g6.2⟩
  · exact ⟨H.add g5.1 g6.1, H.add g5.2 g6.2⟩
  · exact ⟨H.add g11.1 g12.1, H.add g11.2 g12.2⟩
  · exact ⟨H.sub g11.1 g12.1, H.sub g11.2 g12.2⟩

omit H in
theorem mapM_all {α : Type} {P : α → Prop} {f : ℕ → Option α} (hf : ∀ i x, f i = some x → P x) : ∀ {ks : List ℕ} {l : List α}, ks.mapM f = some l → ∀ x ∈ l, P x := by
  intro ks
  induction ks with
  | nil =>
    intro l h x hx
    simp at h
    subst h
    cases hx
  | cons k ks ih =>
    intro l h x hx
    rw [List.mapM_cons] at h
    simp only [Option.bind_eq_bind, Option.bind_eq_some_iff, Option.pure_def, Option.some.injEq] at h
    obtain ⟨a, ha, as, has, rfl⟩ := h
    rcases List.mem_cons.mp hx with rfl | hx
    · exact hf _ _ ha
    · exact ih has x hx

theorem Zeros.acc {intMax fstride k p : ℕ} {scratch : List (Cpx S)} {v : Cpx S} (h : genericAcc A intMax st fstride k p scratch = some v)
    (hz : ∀ x ∈ scratch, Both Z x) : Both Z v := by
  unfold genericAcc at h
  simp only [Option.bind_eq_bind, Option.bind_eq_some_iff, Option.pure_def, Option.some.injEq] at h
  obtain ⟨s0, e0, r, h, rfl⟩ := h
  refine loop_all (fun s : ℕ × Cpx S => Both Z s.2) h (rd_all e0 hz) ?_
  intro q s s' _ hs hb
  split at hb
  · simp at hb
  · simp only [Option.bind_eq_some_iff, Option.some.injEq] at hb
    obtain ⟨tw, e1, sq, e2, rfl⟩ := hb
    exact H.cAdd hs (H.cMul (H.both (rd_all e2 hz)) (H.twAt e1))

theorem Zeros.generic {intMax fstride m p : ℕ} {out out' : List (Cpx S)} (h : genericLoops A intMax st fstride m p out = some out') (hz : ∀ x ∈ out, Both Z x) :
    ∀ x ∈ out', Both Z x := by
  unfold genericLoops at h
  refine loop_all (fun l => ∀ x ∈ l, Both Z x) h hz ?_
  intro u l l' _ hl hb
  simp only [Option.bind_eq_bind, Option.bind_eq_some_iff] at hb
  obtain ⟨scratch, e, hb⟩ := hb
  have hsc := mapM_all (P := Both Z) (fun i x h => rd_all h hl) e
  refine loop_all (fun l => ∀ x ∈ l, Both Z x) hb hl ?_
  intro q l l' _ hl hb
  simp only [Option.bind_eq_some_iff] at hb
  obtain ⟨v, e1, e2⟩ := hb
  exact wr_all e2 hl (H.acc e1 hsc)

omit H in
theorem lift_some {α : Type} {o : Option α} {x : α} {w w' : World} (h : M.lift o w = some (x, w')) : o = some x := by
  unfold M.lift at h
  cases o with
  | none => cases h
  | some a =>
    cases h
    rfl

theorem Zeros.butterfly {fstride m p : ℕ} {out out' : List (Cpx S)} {w w' : World} (h : butterfly A c st fstride m p out w = some (out', w'))
    (hz : ∀ x ∈ out, Both Z x) : ∀ x ∈ out', Both Z x := by
  unfold Verif.butterfly at h
  split at h
  · exact H.bfly2 (lift_some h) hz
  · exact H.bfly3 (lift_some h) hz
  · exact H.bfly4 (lift_some h) hz
  · exact H.bfly5 (lift_some h) hz
  · unfold kfBflyGeneric at h
    obtain ⟨b, w1, _, h⟩ := M.bind_eq_some.mp h
    cases b with
    | none =>
      cases h
      exact hz
    | some b =>
      obtain ⟨l, w2, h2, h⟩ := M.bind_eq_some.mp h
      obtain ⟨_, w3, _, h⟩ := M.bind_eq_some.mp h
      cases h
      exact H.generic (lift_some h2) hz

omit H in
theorem collectM_all {α : Type} {P : α → Prop} {f : ℕ → M (List α)} (hf : ∀ k l w w', f k w = some (l, w') → ∀ x ∈ l, P x) :
    ∀ {ks : List ℕ} {l : List α} {w w' : World}, collectM f ks w = some (l, w') → ∀ x ∈ l, P x := by
  intro ks
  induction ks with
  | nil =>
    intro l w w' h x hx
    cases h
    cases hx
  | cons k ks ih =>
    intro l w w' h x hx
    obtain ⟨a, w1, h1, h⟩ := M.bind_eq_some.mp h
    obtain ⟨b, w2, h2, h⟩ := M.bind_eq_some.mp h
    cases h
    rcases List.mem_append.mp hx with hx | hx
    · exact hf _ _ _ _ h1 x hx
    · exact ih h2 x hx

theorem Zeros.work {f : List (Cpx S)} (hz : ∀ x ∈ f, Both Z x) {inStride : ℕ} {fs : List (ℕ × ℕ)} :
    ∀ {off fstride : ℕ} {out : List (Cpx S)} {w w' : World}, kfWork A c st f inStride fs off fstride w = some (out, w') → ∀ x ∈ out, Both Z x := by
  induction fs with
  | nil =>
    intro off fstride out w w' h
    cases h
  | cons pm rest ih =>
    intro off fstride out w w' h
    obtain ⟨p, m⟩ := pm
    rw [kfWork] at h
    split at h
    · obtain ⟨l, w1, h1, h⟩ := M.bind_eq_some.mp h
      refine H.butterfly h (collectM_all ?_ h1)
      intro k l w w' h x hx
      have h := lift_some h
      rw [Option.map_eq_some_iff] at h
      obtain ⟨y, hy, rfl⟩ := h
      rw [List.mem_singleton] at hx
      subst hx
      exact rd_all hy hz
    · obtain ⟨l, w1, h1, h⟩ := M.bind_eq_some.mp h
      exact H.butterfly h (collectM_all (fun k l w w' h => ih h) h1)

omit H in
theorem pairs_all {P : S → Prop} : ∀ {l : List S}, (∀ x ∈ l, P x) → ∀ x ∈ pairs l, Both P x
  | [], _, _, hx => by cases hx
  | [_], _, _, hx => by cases hx
  | a :: b :: rest, h, x, hx => by
    rcases List.mem_cons.mp hx with rfl | hx
    · exact ⟨h a (by simp), h b (by simp)⟩
    · exact pairs_all (fun y hy => h y (by simp [hy])) x hx

omit H in
theorem wr_get {α : Type} {l l' : List α} {i j : ℕ} {v y : α} (h : wr l i v = some l') (hy : l'[j]? = some y) : (j = i ∧ y = v) ∨ (j ≠ i ∧ l[j]? = some y) := by
  unfold wr at h
  split at h
  · cases h
    by_cases hj : j = i
    · subst hj
      rw [List.getElem?_set_self ‹_›] at hy
      exact .inl ⟨rfl, (Option.some.inj hy).symm⟩
    · rw [List.getElem?_set_ne (Ne.symm hj)] at hy
      exact .inr ⟨hj, hy⟩
  · cases h

theorem Zeros.fftrStep {t a b : Cpx S} (ht : Both T t) (ha : Both Z a) (hb : Both Z b) :
    (Z (fftrStep A t a b).1.r ∧ W (fftrStep A t a b).1.i) ∧ (Z (fftrStep A t a b).2.r ∧ W (fftrStep A t a b).2.i) := by
  have hn : Both W (⟨b.r, A.neg b.i⟩ : Cpx S) := ⟨H.weak hb.1, H.neg (H.weak hb.2)⟩
  have f1 := H.cAdd ha hn
  have f2 := H.cSub ha hn
  have tw := H.cMul (H.both f2) ht
  exact ⟨⟨H.halfOf (H.add f1.1 tw.1), H.weak (H.halfOf (H.add f1.2 tw.2))⟩, ⟨H.halfOf (H.sub f1.1 tw.1), H.mulW (H.subW tw.2 (H.weak f1.2)) H.half⟩⟩

theorem Zeros.unpack {tmp F F' : List (Cpx S)} (h0 : 0 < st.nfft) (h : fftrUnpack A st tmp F = some F') (hz : ∀ x ∈ tmp, Both Z x) :
    ∀ i, i ≤ st.nfft → ∀ v, F'[i]? = some v → Z v.r ∧ W v.i := by
  unfold fftrUnpack at h
  obtain ⟨t, e, h⟩ := Option.bind_eq_some_iff.mp h
  obtain ⟨F1, e1, h⟩ := Option.bind_eq_some_iff.mp h
  obtain ⟨F2, e2, h⟩ := Option.bind_eq_some_iff.mp h
  have ht := rd_all e hz
  have key := loop_keeps (fun K (l : List (Cpx S)) => ∀ i, i ≤ st.nfft → (i < K ∨ st.nfft - i < K) → ∀ v, l[i]? = some v → Z v.r ∧ W v.i)
    (by omega) h ?_ ?_
  · exact fun i hi v hv => key i hi (by omega) v hv
  · intro i hi hor v hv
    rcases wr_get e2 hv with ⟨rfl, rfl⟩ | ⟨hne, hv⟩
    · exact ⟨H.sub ht.1 (H.weak ht.2), H.weak H.zero⟩
    · rcases wr_get e1 hv with ⟨rfl, rfl⟩ | ⟨hne', hv⟩
      · exact ⟨H.add ht.1 (H.weak ht.2), H.weak H.zero⟩
      · omega
  · intro k l l' hk1 hk2 hl hb i hi hor v hv
    obtain ⟨a, ea, hb⟩ := Option.bind_eq_some_iff.mp hb
    obtain ⟨b, eb, hb⟩ := Option.bind_eq_some_iff.mp hb
    obtain ⟨s, es, hb⟩ := Option.bind_eq_some_iff.mp hb
    obtain ⟨l1, u1, u2⟩ := Option.bind_eq_some_iff.mp hb
    have hs := H.fftrStep (H.stwAt es) (rd_all ea hz) (rd_all eb hz)
    rcases wr_get u2 hv with ⟨rfl, rfl⟩ | ⟨hne, hv⟩
    · exact hs.2
    · rcases wr_get u1 hv with ⟨rfl, rfl⟩ | ⟨hne', hv⟩
      · exact hs.1
      · exact hl i hi (by omega) v hv

theorem Zeros.row {F0 : List (Cpx S)} {mc sc j length stride dist : ℕ} {f f' : List S} {w w' : World} (h0 : 0 < st.nfft) (hn : st.nfft = length)
    (h : dctRow A c st F0 mc sc j length stride dist f w = some (f', w')) (hz : ∀ x ∈ f, Z x) : ∀ x ∈ f', Z x := by
  unfold dctRow at h
  obtain ⟨row, w1, h1, h⟩ := M.bind_eq_some.mp h
  have hrow := mapM_all (P := Z) (fun i x h => rd_all h hz) (lift_some h1)
  have hhalf : ∀ x ∈ row.map A.load, Z x := by
    intro x hx
    obtain ⟨y, hy, rfl⟩ := List.mem_map.mp hx
    exact H.load (hrow y hy)
  split at h
  · obtain ⟨F, w2, h2, h⟩ := M.bind_eq_some.mp h
    unfold kissFftr at h2
    obtain ⟨tmp, w3, h3, h4⟩ := M.bind_eq_some.mp h2
    have htmp := H.work (pairs_all (P := Z) (fun x hx => by
      rcases List.mem_append.mp hx with hx | hx
      · exact hhalf x hx
      · exact hhalf x (List.mem_reverse.mp hx))) h3
    have hF := H.unpack h0 (lift_some h4) htmp
    have h5 := lift_some h
    unfold dctStore at h5
    refine loop_all (fun l => ∀ x ∈ l, Z x) h5 hz ?_
    intro i l l' hi hl hb
    obtain ⟨Fi, e, hb⟩ := Option.bind_eq_some_iff.mp hb
    have hFi := hF i (by omega) Fi e
    split at hb
    · obtain ⟨s1, s2⟩ := H.shift length i hi
      exact wr_all hb hl (H.store (H.sub (s1 hFi.1) (H.mulW hFi.2 s2)))
    · cases hb
  · cases h

theorem Zeros.dct {F0 : List (Cpx S)} {mc sc n length stride dist : ℕ} {f f' : List S} {w w' : World} (h0 : 0 < st.nfft) (hn : st.nfft = length)
    (h : kissDct A c st F0 mc sc n length stride dist f w = some (f', w')) (hz : ∀ x ∈ f, Z x) : ∀ x ∈ f', Z x := by
  unfold kissDct at h
  generalize List.range n = ks at h
  induction ks generalizing f w with
  | nil =>
    cases h
    exact hz
  | cons k ks ih =>
    rw [List.foldlM_cons] at h
    obtain ⟨g, w1, h1, h⟩ := M.bind_eq_some.mp h
    exact ih (H.row h0 hn h1 hz) h

theorem Zeros.transform {p : KissPlan} {w h : ℕ} (g : KissGood c p w h) {junk : Cpx S} {f r : List S} {wd wd' : World}
    (hr : kissTransform A c junk p f wd = some (r, wd')) (hz : ∀ x ∈ f, Z x) : ∀ x ∈ r, Z x := by
  have hr := kissTransform_eq g hr
  unfold transformOf at hr
  obtain ⟨f1, w1, h1, h2⟩ := M.bind_eq_some.mp hr
  exact H.dct g.stages1.pos g.n1 h2 (H.dct g.stages0.pos g.n0 h1 hz)

end

theorem finite_fin {x : Fl} (h : x.isfinite = true) : ∃ b v, x = .fin b v := by
  cases x with
  | fin b v => exact ⟨b, v, rfl⟩
  | _ => cases h

theorem deliver_zero (F : Fmt) (b : Bool) : F.deliver b 0 = .fin b 0 := by simp [Fmt.deliver]

theorem black_zeros {s : Sys} (h : Tables s.env) :
    Zeros s.arith (fun x => x = .fin false 0) (fun x => ∃ b, x = .fin b 0) (fun x => x.isfinite = true) where
  weak := fun h => ⟨_, h⟩
  zero := rfl
  half := rfl
  halfOf := by
    rintro _ rfl
    simp [Sys.arith, flArith, Fmt.mul, deliver_zero]
  add := by
    rintro _ _ rfl ⟨b, rfl⟩
    simp [Sys.arith, flArith, Fmt.add, deliver_zero]
  sub := by
    rintro _ _ rfl ⟨b, rfl⟩
    simp [Sys.arith, flArith, Fmt.sub, Fl.neg, Fmt.add, deliver_zero]
  addW := by
    rintro _ _ ⟨a, rfl⟩ ⟨b, rfl⟩
    exact ⟨a && b, by simp [Sys.arith, flArith, Fmt.add, deliver_zero]⟩
  subW := by
    rintro _ _ ⟨a, rfl⟩ ⟨b, rfl⟩
    exact ⟨a && !b, by simp [Sys.arith, flArith, Fmt.sub, Fl.neg, Fmt.add, deliver_zero]⟩
  mulW := by
    rintro _ y ⟨a, rfl⟩ hy
    obtain ⟨b, v, rfl⟩ := finite_fin hy
    exact ⟨xor a b, by simp [Sys.arith, flArith, Fmt.mul, deliver_zero]⟩
  neg := by
    rintro _ ⟨a, rfl⟩
    exact ⟨!a, by simp [Sys.arith, flArith, Fl.neg]⟩
  load := by
    rintro _ rfl
    simp [Sys.arith, flArith, Fmt.conv, deliver_zero]
  store := by
    rintro _ rfl
    simp [Sys.arith, flArith, Fmt.conv, deliver_zero]
  tw := h.tw
  stw := h.stw
  shift := by
    intro n k hk
    obtain ⟨h1, h2, h3⟩ := h.shift n k hk
    refine ⟨?_, h3⟩
    rintro _ rfl
    obtain ⟨b, v, e⟩ := finite_fin h1
    rw [e] at h2
    cases h2
    have : s.arith.mul (.fin false 0) (s.arith.shift n k).r = s.cfg.kiss.mul (.fin false 0) (s.env.shift n k).r := rfl
    rw [this, e]
    simp [Fmt.mul, deliver_zero]

/-! ## Scores of a spectrum of zeros -/

section
variable {s : Sys} {g : ℕ → ℕ → Fl} {n len range x : ℕ}

theorem fsum_zeros {F : Fmt} {l : List Fl} (h : ∀ y ∈ l, y = .fin false 0) : fsum F l = .fin false 0 := by
  unfold fsum
  induction l with
  | nil => rfl
  | cons a l ih =>
    rw [List.foldl_cons, h a (by simp)]
    simp only [Fmt.add, Bool.and_self, add_zero, deliver_zero]
    exact ih fun y hy => h y (by simp [hy])

theorem magHit_zero (hc : s.cfg.coeff.WF) (hq : s.cfg.coeff.qmin ≤ 1 - (s.cfg.inter.p : ℤ)) (hi : s.cfg.inter.WF) :
    magHit s (.fin false 0) (.fin false 0) = false := by
  have hpos := pow2_pos (1 - (s.cfg.inter.p : ℤ))
  have hz : ∀ d : Fl, (d = .inf false ∨ ∃ v, v ≠ 0 ∧ d = .fin false v) → s.cfg.coeff.div (.fin false 0) d = .fin false 0 := by
    rintro d (rfl | ⟨v, hv, rfl⟩)
    · simp [Fmt.div]
    · simp [Fmt.div, hv, deliver_zero]
  have hd : s.cfg.coeff.conv (.fin false (pow2 (1 - (s.cfg.inter.p : ℤ)))) = .inf false ∨ ∃ v, v ≠ 0 ∧ s.cfg.coeff.conv (.fin false (pow2 (1 - (s.cfg.inter.p : ℤ)))) = .fin false v := by
    unfold Fmt.conv Fmt.deliver
    simp only [hpos.ne', if_false, s.cfg.coeff.rnd_pow2 hc hq, not_lt.mpr hpos.le, decide_false]
    split
    · exact .inl rfl
    · exact .inr ⟨_, hpos.ne', rfl⟩
  have hone : ∀ {F : Fmt}, F.WF → F.deliver false 1 = .fin false 1 := fun {F} hF => by
    have h2 : (2 : ℚ) ≤ pow2 F.emax := by
      rw [← show pow2 1 = 2 from by simp [pow2]]
      exact pow2_le (by have := hF.p_le; have := hF.p_pos; omega)
    unfold Fmt.deliver
    simp only [one_ne_zero, if_false, F.rnd_one hF, abs_one]
    rw [if_neg (by linarith)]
    simp
  have hlt : Fl.lt (.fin false (pow2 (1 - (s.cfg.inter.p : ℤ)))) (.fin false |(0 : ℚ)|) = false := by
    simp [Fl.lt, hpos.le]
  have hcs : ∀ d : Fl, (d = .inf false ∨ ∃ v, v ≠ 0 ∧ d = .fin false v) → d = .inf false ∨ ∃ v, v ≠ 0 ∧ d.copysign (.fin false 0) = .fin false v := by
    rintro d (rfl | ⟨v, hv, rfl⟩)
    · exact .inl rfl
    · exact .inr ⟨|v|, by simpa using hv, by simp [Fl.copysign, Fl.fabs, Fl.signbit]⟩
  have hden : s.cfg.coeff.div (.fin false 0) ((s.cfg.coeff.conv (.fin false (pow2 (1 - (s.cfg.inter.p : ℤ))))).copysign (.fin false 0)) = .fin false 0 := by
    refine hz _ ?_
    rcases hcs _ hd with e | e
    · left
      rw [e]
      rfl
    · exact .inr e
  unfold magHit
  simp only [Fl.fabs, hlt, Bool.false_eq_true, if_false, hden]
  simp [Fmt.add, hone hc, Fmt.conv, hone hi]

theorem frameScore_zero {d : Detect} (hF : s.cfg.inter.WF) (hp : Precise s.cfg) (hc : s.cfg.coeff.WF) (hq : s.cfg.coeff.qmin ≤ 1 - (s.cfg.inter.p : ℤ))
    (hn : n ≤ 2 ^ s.cfg.inter.p) (hr : range ≤ 2 ^ s.cfg.inter.p) (hn0 : 0 < n) (hr0 : 0 < range) (hx : range ≤ x) (hx' : x + range < len)
    (hg : ∀ y < n, ∀ z < len, g y z = .fin false 0) : (frameScore s d g n range x).getD (.fin false 0) = .fin false 0 := by
  have hratio : ∀ {a b}, a ≤ 2 ^ s.cfg.inter.p → b ≤ 2 ^ s.cfg.inter.p → 0 < a → 0 < b → ratio s.cfg 0 a b = .fin false 0 := by
    intro a b ha hb ha0 hb0
    rw [(ratio_eq hF hp ha hb ha0 hb0 (Nat.zero_le _)).1]
    simp [s.cfg.inter.rnd_zero]
  have hsign : signMatches g n range x = 0 := by
    unfold signMatches
    rw [Finset.card_eq_zero, Finset.filter_eq_empty_iff]
    intro q hq
    simp only [Finset.mem_product, Finset.mem_range, Finset.mem_Icc] at hq
    rw [hg _ hq.1 _ (by omega), hg _ hq.1 _ (by omega)]
    simp
  have hroom : (s.cfg.inter.p : ℤ) < s.cfg.inter.emax := by have := hp.room; omega
  have hon := ofNat_exact hF hroom hn
  have hor := ofNat_exact hF hroom hr
  have hdiv : s.cfg.inter.div (.fin false 0) (s.cfg.inter.ofNat n) = .fin false 0 := by
    rw [hon]
    have : (n : ℚ) ≠ 0 := by exact_mod_cast hn0.ne'
    simp [Fmt.div, this, deliver_zero]
  cases d with
  | sign => simp only [frameScore, Option.getD_some, hsign, hratio hn hr hn0 hr0]
  | mag =>
    have : pairMatches (magHit s) g n range x = 0 := by
      unfold pairMatches
      rw [Finset.card_eq_zero, Finset.filter_eq_empty_iff]
      intro q hq'
      simp only [Finset.mem_product, Finset.mem_range, Finset.mem_Icc] at hq'
      rw [hg _ hq'.1 _ (by omega), hg _ hq'.1 _ (by omega), magHit_zero hc hq hF]
      simp
    simp only [frameScore, Option.getD_some, this, hratio hn hr hn0 hr0]
  | orig =>
    have hmm : ∀ z < len, meanMag s.cfg g n z = .fin false 0 := by
      intro z hz
      unfold meanMag
      rw [fsum_zeros ?_, hdiv]
      intro y hy
      obtain ⟨i, hi, rfl⟩ := List.mem_map.mp hy
      rw [hg i (List.mem_range.mp hi) z hz]
      simp [Fmt.conv, deliver_zero, Fl.fabs]
    have : origPasses s.cfg g n range x = false := by
      unfold origPasses
      rw [fsum_zeros (l := (List.range range).map (fun i => meanMag s.cfg g n (x - (i + 1)))),
        fsum_zeros (l := (List.range range).map (fun i => meanMag s.cfg g n (x + (i + 1)))), hmm x (by omega), hor]
      · simp [Fmt.mul, deliver_zero, Fl.lt]
      · intro y hy
        obtain ⟨i, hi, rfl⟩ := List.mem_map.mp hy
        have := List.mem_range.mp hi
        exact hmm _ (by omega)
      · intro y hy
        obtain ⟨i, hi, rfl⟩ := List.mem_map.mp hy
        exact hmm _ (by omega)
    simp [frameScore, this]
  | zerox =>
    have : crossings g n x = 0 := by
      unfold crossings
      rw [Finset.card_eq_zero, Finset.filter_eq_empty_iff]
      intro y hy
      have hy := Finset.mem_range.mp hy
      rw [hg _ hy _ (by omega), hg _ hy _ (by omega), hg _ hy _ (by omega)]
      simp [crosses]
    have h0 : s.cfg.inter.ofNat 0 = .fin false 0 := by simp [Fmt.ofNat, deliver_zero]
    simp only [frameScore, Option.getD_some, this, h0, hdiv]

theorem meanAt_zero {d : Detect} {g : List Fl → ℕ → ℕ → Fl} {fs : List (List Fl)} (hF : s.cfg.inter.WF)
    (h : ∀ f ∈ fs, (frameScore s d (g f) n range x).getD (.fin false 0) = .fin false 0) (hne : fs ≠ []) :
    meanAt s d g n range fs x = .fin false 0 := by
  have ht : total s d g n range fs x = .fin false 0 := by
    unfold total
    clear hne
    induction fs with
    | nil => rfl
    | cons f fs ih =>
      rw [List.foldl_cons]
      have h1 := h f (by simp)
      have : addScore s.cfg (.fin false 0) (frameScore s d (g f) n range x) = .fin false 0 := by
        cases e : frameScore s d (g f) n range x with
        | none => rfl
        | some v =>
          rw [e] at h1
          simp only [Option.getD_some] at h1
          subst h1
          simp [addScore, Fmt.add, deliver_zero]
      rw [this]
      exact ih fun f hf => h f (by simp [hf])
  unfold meanAt mean
  rw [ht]
  have hk : 1 ≤ fs.length := List.length_pos_iff.mpr hne
  have h1 := one_le_rnd hF hk
  unfold Fmt.ofNat Fmt.deliver
  have : (fs.length : ℚ) ≠ 0 := by exact_mod_cast (by omega : fs.length ≠ 0)
  simp only [this, if_false]
  split
  · simp [Fmt.div]
  · have h2 : s.cfg.inter.rnd (fs.length : ℚ) ≠ 0 := by linarith
    simp [Fmt.div, h2, deliver_zero]

end

end Verif
