import Verif.Proofs.KissSafe
import Verif.Proofs.FactorPrime

/-! For lengths without prime factors above 5 the KISS transform does not depend on the outcome of any allocation. -/

namespace Verif

/-- With the blocks `L` alive, `m` is defined, leaves the same blocks alive, and delivers a value with property `P` that is
the same in every world. -/
def Val {α : Type} (L : List ℕ) (m : M α) (P : α → Prop) : Prop :=
  ∃ a, P a ∧ ∀ w : World, (∀ b ∈ L, b ∈ w.live) → ∃ x y, m w = some (a, w.skip x y)

namespace Val
variable {α β : Type} {L : List ℕ} {P : α → Prop} {Q : β → Prop}

theorem pure {a : α} (h : P a) : Val L (Pure.pure a : M α) P := ⟨a, h, fun _ _ => ⟨0, 0, rfl⟩⟩

theorem lift {o : Option α} {a : α} (ho : o = some a) (h : P a) : Val L (M.lift o) P :=
  ⟨a, h, fun _ _ => ⟨0, 0, by rw [ho]; rfl⟩⟩

theorem touch {b : ℕ} (hb : b ∈ L) : Val L (Verif.touch b) (fun _ => True) :=
  ⟨(), trivial, fun w hw => ⟨0, 0, by unfold Verif.touch; rw [if_pos (hw b hb)]; rfl⟩⟩

theorem need {o : Option α} {a : α} (ho : o = some a) (h : P a) : Val L (Verif.need o) P := lift ho h

theorem mono {m : M α} {P' : α → Prop} (h : Val L m P) (hP : ∀ a, P a → P' a) : Val L m P' := by
  obtain ⟨a, h1, h2⟩ := h
  exact ⟨a, hP _ h1, h2⟩

theorem bind {m : M α} {f : α → M β} (hm : Val L m P) (hf : ∀ a, P a → Val L (f a) Q) : Val L (m >>= f) Q := by
  obtain ⟨a, h1, h2⟩ := hm
  obtain ⟨b, h3, h4⟩ := hf a h1
  refine ⟨b, h3, fun w hw => ?_⟩
  obtain ⟨x, y, e⟩ := h2 w hw
  obtain ⟨x', y', e'⟩ := h4 (w.skip x y) hw
  exact ⟨x + x', y' + y, by rw [M.bind_some e, e', World.skip_skip]⟩

theorem weaken {L' : List ℕ} {m : M α} (h : Val L m P) (hL : ∀ b ∈ L, b ∈ L') : Val L' m P := by
  obtain ⟨a, h1, h2⟩ := h
  exact ⟨a, h1, fun w hw => h2 w (fun b hb => hw b (hL b hb))⟩

/-- `malloc`, a computation, `free`: harmless if the computation has the same value as the failure exit. -/
theorem mallocFree {P : α → Prop} {a : α} {o : Option α} (h0 : P a) (ho : o = some a) :
    Val L (do
      match ← malloc with
      | none => return a
      | some b =>
        let r ← M.lift o
        free (some b)
        return r) P := by
  have hT := Temp.mallocFree (L := L) (P := fun x => x = a) (a := a) rfl (Temp.lift ho rfl)
  obtain ⟨g, h1, h2⟩ := hT
  refine ⟨a, h0, fun w hw => ⟨(g w.sched).2.1, (g w.sched).2.2, ?_⟩⟩
  have := h2 w hw
  rw [show (g w.sched).1 = a from h1 _] at this
  exact this

theorem foldlM {σ ι : Type} {P : σ → Prop} {f : σ → ι → M σ} {l : List ι} {s : σ} (h0 : P s)
    (hf : ∀ i ∈ l, ∀ s, P s → Val L (f s i) P) : Val L (l.foldlM f s) P := by
  induction l generalizing s with
  | nil => exact Val.pure h0
  | cons i l ih =>
    rw [List.foldlM_cons]
    exact bind (hf i (by simp) s h0) (fun a ha => ih ha (fun j hj => hf j (by simp [hj])))

theorem collectM {body : ℕ → M (List α)} {ks : List ℕ} {len : ℕ}
    (h : ∀ k ∈ ks, Val L (body k) (fun l => l.length = len)) :
    Val L (Verif.collectM body ks) (fun l => l.length = ks.length * len) := by
  induction ks with
  | nil => exact Val.pure (by simp)
  | cons k ks ih =>
    unfold Verif.collectM
    refine bind (h k (by simp)) (fun a ha => bind (ih (fun j hj => h j (by simp [hj]))) (fun b hb => Val.pure ?_))
    rw [List.length_append, ha, hb, List.length_cons, Nat.add_mul]; omega

end Val

variable {S : Type} (A : Arith S) (c : Cfg)

/-- The generic butterfly of radix 1 changes nothing. -/
theorem genericLoops_one {intMax m : ℕ} {st : FftCfg} {fstride : ℕ} {out : List (Cpx S)} (hN : st.nfft = fstride * (1 * m))
    (hf : 0 < fstride) (hlen : out.length = 1 * m) (hint : 2 * st.nfft ≤ intMax) :
    genericLoops A intMax st fstride m 1 out = some out := by
  obtain ⟨r, h1, h2, h3⟩ := genericLoops_spec A Nat.one_pos hN hf hlen hint
  rw [h1]
  congr 1
  apply List.ext_getElem?
  intro k
  by_cases hk : k < m
  · have := h3 k 0 hk Nat.one_pos
    rw [Nat.zero_mul, Nat.add_zero] at this
    rw [getElem?_cget A (by omega), getElem?_cget A (by omega), this]
    simp [genericSum]
  · rw [List.getElem?_eq_none (by omega), List.getElem?_eq_none (by omega)]

theorem butterfly_val {st : FftCfg} {fstride m p : ℕ} {out : List (Cpx S)} (h5 : p ≤ 5) (hp : 0 < p) (hm : 0 < m)
    (hN : st.nfft = fstride * (p * m)) (hf : 0 < fstride) (hlen : out.length = p * m) (hint : 2 * st.nfft ≤ c.intMax) :
    Val [] (butterfly A c st fstride m p out) (fun r => r.length = p * m) := by
  unfold butterfly
  split
  · obtain ⟨r, h1, h2, _⟩ := kfBfly2_spec A hN hf hlen
    exact Val.lift h1 h2
  · obtain ⟨r, h1, h2, _⟩ := kfBfly3_spec A hN hf hm hlen
    exact Val.lift h1 h2
  · obtain ⟨r, h1, h2, _⟩ := kfBfly4_spec A hN hf hlen
    exact Val.lift h1 h2
  · obtain ⟨r, h1, h2, _⟩ := kfBfly5_spec A hN hf hm hlen
    exact Val.lift h1 h2
  · rename_i n2 n3 n4 n5
    obtain rfl : p = 1 := by
      have : p ≠ 2 := n2
      have : p ≠ 3 := n3
      have : p ≠ 4 := n4
      have : p ≠ 5 := n5
      omega
    exact Val.mallocFree hlen (genericLoops_one A hN hf hlen hint)

theorem kfWork_val {st : FftCfg} {f : List (Cpx S)} (hint : 2 * st.nfft ≤ c.intMax) (fs : List (ℕ × ℕ)) :
    ∀ {N off fstride : ℕ}, Stages N fs → (∀ x ∈ fs, x.1 ≤ 5) → st.nfft = fstride * N → 0 < fstride →
      (∀ k, k < N → off + k * fstride < f.length) →
      Val [] (kfWork A c st f 1 fs off fstride) (fun r => r.length = N) := by
  induction fs with
  | nil => intro N off fstride h; exact h.elim
  | cons x rest ih =>
    obtain ⟨p, m⟩ := x
    rintro N off fstride ⟨hp, hm, rfl, hrest⟩ h5 hN hf hin
    unfold kfWork
    have hbf : ∀ out : List (Cpx S), out.length = p * m →
        Val [] (butterfly A c st fstride m p out) (fun r => r.length = p * m) :=
      fun out hout => butterfly_val A c (h5 (p, m) (by simp)) hp hm hN hf hout hint
    simp only
    by_cases h1 : m = 1
    · subst h1
      rw [if_pos rfl]
      refine Val.bind (Val.mono (Val.collectM (len := 1) ?_) (fun l hl => by simpa using hl)) hbf
      intro k hk
      have hk : k < p := by simpa using hk
      have := hin k (by omega)
      rw [Nat.mul_one]
      exact Val.lift (a := [cget A f (off + k * fstride)]) (by rw [rd_cget A this]; rfl) rfl
    · rw [if_neg h1] at hrest ⊢
      refine Val.bind (Val.mono (Val.collectM (len := m) ?_) (fun l hl => by simpa using hl)) hbf
      intro k hk
      have hk : k < p := by simpa using hk
      rw [Nat.mul_one]
      apply ih hrest (fun x hx => h5 x (by simp [hx])) (by rw [hN, Nat.mul_assoc]) (Nat.mul_pos hf hp)
      intro j hj
      have := hin (k + j * p) (stage_pos hk hj)
      have e : (k + j * p) * fstride = k * fstride + j * (fstride * p) := by ring
      omega

theorem kissFftr_val {st : FftCfg} {timedata : List S} {freqdata : List (Cpx S)} (hint : 2 * st.nfft ≤ c.intMax)
    (hst : Stages st.nfft st.factors) (h5 : ∀ x ∈ st.factors, x.1 ≤ 5) (h1 : timedata.length = 2 * st.nfft) (h2 : st.nfft < freqdata.length) :
    Val [] (kissFftr A c st timedata freqdata) (fun r => r.length = freqdata.length) := by
  have h0 := hst.pos
  unfold kissFftr kissFft
  refine Val.bind (kfWork_val A c hint st.factors (N := st.nfft) hst h5 (by simp) Nat.one_pos ?_) ?_
  · intro k hk
    rw [pairs_length, h1]; omega
  · intro tmp htmp
    obtain ⟨r, e1, e2⟩ := fftrUnpack_ok A h0 htmp h2
    exact Val.lift e1 e2

theorem dctRow_val {st : FftCfg} {F0 : List (Cpx S)} {mirrorCap shiftCap j length stride dist : ℕ} {f : List S}
    (hint : 2 * st.nfft ≤ c.intMax) (hst : Stages st.nfft st.factors) (h5 : ∀ x ∈ st.factors, x.1 ≤ 5) (hn : st.nfft = length)
    (hm : length * 2 ≤ mirrorCap) (hs : length ≤ shiftCap) (hF : length < F0.length)
    (hin : ∀ i, i < length → j * dist + i * stride < f.length) :
    Val [] (dctRow A c st F0 mirrorCap shiftCap j length stride dist f) (fun r => r.length = f.length) := by
  unfold dctRow
  obtain ⟨row, h1, h2⟩ := mapM_rd_ok hin
  refine Val.bind (Val.lift (P := fun r => r.length = length) h1 h2) ?_
  intro row hrow
  simp only
  rw [if_pos hm]
  refine Val.bind (kissFftr_val A c hint hst h5 (by simp [hrow]; omega) (by omega)) ?_
  intro F hFl
  obtain ⟨r, e1, e2⟩ := dctStore_ok A (F := F) (shiftCap := shiftCap) (by omega) hs hin
  exact Val.lift e1 e2

theorem kissDct_val {st : FftCfg} {F0 : List (Cpx S)} {mirrorCap shiftCap n length stride dist : ℕ} {f : List S}
    (hint : 2 * st.nfft ≤ c.intMax) (hst : Stages st.nfft st.factors) (h5 : ∀ x ∈ st.factors, x.1 ≤ 5) (hn : st.nfft = length)
    (hm : length * 2 ≤ mirrorCap) (hs : length ≤ shiftCap) (hF : length < F0.length)
    (hin : ∀ j i, j < n → i < length → j * dist + i * stride < f.length) :
    Val [] (kissDct A c st F0 mirrorCap shiftCap n length stride dist f) (fun r => r.length = f.length) := by
  unfold kissDct
  refine Val.foldlM (P := fun (r : List S) => r.length = f.length) rfl ?_
  intro j hj l hl
  have hj : j < n := by simpa using hj
  refine Val.mono (dctRow_val A c hint hst h5 hn hm hs hF ?_) (fun r hr => by omega)
  intro i hi
  rw [hl]; exact hin j i hj hi

variable {A c}

theorem kissTransform_val {p : KissPlan} {w h : ℕ} (g : KissGood c p w h) (k0 : ∀ x ∈ g.cfg0.2.factors, x.1 ≤ 5)
    (k1 : ∀ x ∈ g.cfg1.2.factors, x.1 ≤ 5) {junk : Cpx S} {f : List S}
    (hf : f.length = w * h) : Val p.blocks (kissTransform A c junk p f) (fun r => r.length = w * h) := by
  have hb : p.blocks = [p.block, g.cfg0.1, g.shift0.1] ++ (if w = h then [] else [g.cfg1.1, g.shift1.1]) ++
      [g.mirror.1, g.F.1] := by
    unfold KissPlan.blocks
    rw [g.cfg0_eq, g.cfg1_eq, g.mirror_eq, g.F_eq, g.shift0_eq, g.shift1_eq, g.width, g.height]
    simp [blk]
  have hc1 : g.cfg1.1 ∈ p.blocks := by
    rw [hb]
    by_cases e : w = h
    · rw [(g.same e).2]; simp
    · rw [if_neg e]; simp
  have hs1 : g.shift1.1 ∈ p.blocks := by
    rw [hb]
    by_cases e : w = h
    · rw [(g.same e).1]; simp
    · rw [if_neg e]; simp
  unfold kissTransform
  refine Val.bind (Val.touch (by rw [hb]; simp)) (fun _ _ => ?_)
  refine Val.bind (Val.need (P := fun x => x = g.cfg0) g.cfg0_eq rfl) ?_
  rintro _ rfl
  refine Val.bind (Val.need (P := fun x => x = g.cfg1) g.cfg1_eq rfl) ?_
  rintro _ rfl
  refine Val.bind (Val.need (P := fun x => x = g.mirror) g.mirror_eq rfl) ?_
  rintro _ rfl
  refine Val.bind (Val.need (P := fun x => x = g.F) g.F_eq rfl) ?_
  rintro _ rfl
  refine Val.bind (Val.need (P := fun x => x = g.shift0) g.shift0_eq rfl) ?_
  rintro _ rfl
  refine Val.bind (Val.need (P := fun x => x = g.shift1) g.shift1_eq rfl) ?_
  rintro _ rfl
  refine Val.bind (Val.touch (by rw [hb]; simp)) (fun _ _ => ?_)
  refine Val.bind (Val.touch hc1) (fun _ _ => ?_)
  refine Val.bind (Val.touch (by rw [hb]; simp)) (fun _ _ => ?_)
  refine Val.bind (Val.touch (by rw [hb]; simp)) (fun _ _ => ?_)
  refine Val.bind (Val.touch (by rw [hb]; simp)) (fun _ _ => ?_)
  refine Val.bind (Val.touch hs1) (fun _ _ => ?_)
  rw [g.width, g.height]
  refine Val.bind (P := fun (r : List S) => r.length = w * h) ?_ ?_
  · refine Val.weaken (Val.mono (kissDct_val A c (by rw [g.n0]; exact g.int0) g.stages0 k0 g.n0 g.mirror0 g.s0
      (by rw [List.length_replicate]; exact g.F0) ?_) (fun r hr => by omega)) (by simp)
    intro j i hj hi
    rw [hf]; exact index_row hj hi
  · intro f' hf'
    refine Val.weaken (Val.mono (kissDct_val A c (by rw [g.n1]; exact g.int1) g.stages1 k1 g.n1 g.mirror1 g.s1
      (by rw [List.length_replicate]; exact g.F1) ?_) (fun r hr => by omega)) (by simp)
    intro j i hj hi
    rw [hf']; exact index_col hj hi

end Verif
