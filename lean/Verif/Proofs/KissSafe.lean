import Verif.Proofs.Butterfly
import Verif.Proofs.Factor

/-! The KISS transform never leaves its arrays, frees its temporaries, and delivers an array of the right size. -/

namespace Verif

variable {S : Type} (A : Arith S) (c : Cfg)

theorem butterfly_temp {st : FftCfg} {fstride m p : ℕ} {out : List (Cpx S)} (hp : 0 < p) (hm : 0 < m)
    (hN : st.nfft = fstride * (p * m)) (hf : 0 < fstride) (hlen : out.length = p * m) (hint : 2 * st.nfft ≤ c.intMax) :
    Temp [] (butterfly A c st fstride m p out) (fun r => r.length = p * m) := by
  unfold butterfly
  split
  · obtain ⟨r, h1, h2, _⟩ := kfBfly2_spec A hN hf hlen
    exact Temp.lift h1 h2
  · obtain ⟨r, h1, h2, _⟩ := kfBfly3_spec A hN hf hm hlen
    exact Temp.lift h1 h2
  · obtain ⟨r, h1, h2, _⟩ := kfBfly4_spec A hN hf hlen
    exact Temp.lift h1 h2
  · obtain ⟨r, h1, h2, _⟩ := kfBfly5_spec A hN hf hm hlen
    exact Temp.lift h1 h2
  · obtain ⟨r, h1, h2, _⟩ := genericLoops_spec A hp hN hf hlen hint
    exact Temp.mallocFree hlen (Temp.lift h1 h2)

theorem stage_pos {p m k j : ℕ} (hk : k < p) (hj : j < m) : k + j * p < p * m := by
  have := pos_lt (p := m) (m := p) hk hj
  rw [Nat.mul_comm p m]; exact this

theorem kfWork_temp {st : FftCfg} {f : List (Cpx S)} (hint : 2 * st.nfft ≤ c.intMax) (fs : List (ℕ × ℕ)) :
    ∀ {N off fstride : ℕ}, Stages N fs → st.nfft = fstride * N → 0 < fstride →
      (∀ k, k < N → off + k * fstride < f.length) →
      Temp [] (kfWork A c st f 1 fs off fstride) (fun r => r.length = N) := by
  induction fs with
  | nil => intro N off fstride h; exact h.elim
  | cons x rest ih =>
    obtain ⟨p, m⟩ := x
    rintro N off fstride ⟨hp, hm, rfl, hrest⟩ hN hf hin
    unfold kfWork
    have hbf : ∀ out : List (Cpx S), out.length = p * m →
        Temp [] (butterfly A c st fstride m p out) (fun r => r.length = p * m) :=
      fun out hout => butterfly_temp A c hp hm hN hf hout hint
    simp only
    by_cases h1 : m = 1
    · subst h1
      rw [if_pos rfl]
      refine Temp.bind (Temp.mono (Temp.collectM (len := 1) ?_) (fun l hl => by simpa using hl)) hbf
      intro k hk
      have hk : k < p := by simpa using hk
      have := hin k (by omega)
      rw [Nat.mul_one]
      exact Temp.lift (a := [cget A f (off + k * fstride)]) (by rw [rd_cget A this]; rfl) rfl
    · rw [if_neg h1] at hrest ⊢
      refine Temp.bind (Temp.mono (Temp.collectM (len := m) ?_) (fun l hl => by simpa using hl)) hbf
      intro k hk
      have hk : k < p := by simpa using hk
      rw [Nat.mul_one]
      apply ih hrest (by rw [hN, Nat.mul_assoc]) (Nat.mul_pos hf hp)
      intro j hj
      have := hin (k + j * p) (stage_pos hk hj)
      have e : (k + j * p) * fstride = k * fstride + j * (fstride * p) := by ring
      omega

theorem pairs_length (l : List S) : (pairs l).length = l.length / 2 := by
  induction l using pairs.induct with
  | case1 a b rest ih => rw [pairs]; simp only [List.length_cons]; omega
  | case2 t h =>
    match t, h with
    | [], _ => simp [pairs]
    | [a], _ => simp [pairs]
    | a :: b :: r, h => exact absurd rfl (h a b r)

theorem stwAt_eq {st : FftCfg} {k : ℕ} (h : k < st.nfft / 2) : stwAt A st k = some (A.superTwiddle st.nfft k) := by
  unfold stwAt; rw [if_pos h]

theorem fftrUnpack_ok {st : FftCfg} {tmpbuf freqdata : List (Cpx S)} (h0 : 0 < st.nfft) (h1 : tmpbuf.length = st.nfft)
    (h2 : st.nfft < freqdata.length) :
    ∃ r, fftrUnpack A st tmpbuf freqdata = some r ∧ r.length = freqdata.length := by
  unfold fftrUnpack
  rw [rd_cget A (show 0 < tmpbuf.length by omega)]
  simp only [Option.bind_eq_bind, Option.bind_some]
  rw [wr_eq (by omega), Option.bind_some, wr_eq (by rw [List.length_set]; omega), Option.bind_some]
  obtain ⟨r, e1, e2⟩ := loop_inv (P := fun _ (l : List (Cpx S)) => l.length = freqdata.length)
    (lo := 1) (hi := st.nfft / 2 + 1)
    (body := fun k freqdata => (rd tmpbuf k).bind fun fpk => (rd tmpbuf (st.nfft - k)).bind fun fpnk =>
      (stwAt A st (k - 1)).bind fun stw =>
        (wr freqdata k (fftrStep A stw fpk fpnk).1).bind fun freqdata =>
          wr freqdata (st.nfft - k) (fftrStep A stw fpk fpnk).2)
    (s := (freqdata.set 0 ⟨A.add (cget A tmpbuf 0).r (cget A tmpbuf 0).i, A.zero⟩).set st.nfft
      ⟨A.sub (cget A tmpbuf 0).r (cget A tmpbuf 0).i, A.zero⟩)
    (by omega) (by simp)
    (by
      intro k l hk1 hk2 hl
      rw [rd_cget A (show k < tmpbuf.length by omega), rd_cget A (show st.nfft - k < tmpbuf.length by omega),
        stwAt_eq A (show k - 1 < st.nfft / 2 by omega)]
      simp only [Option.bind_some]
      rw [wr_eq (by omega), Option.bind_some, wr_eq (by rw [List.length_set]; omega)]
      exact ⟨_, rfl, by simpa using hl⟩)
  exact ⟨r, e1, e2⟩

theorem kissFftr_temp {st : FftCfg} {timedata : List S} {freqdata : List (Cpx S)} (hint : 2 * st.nfft ≤ c.intMax)
    (hst : Stages st.nfft st.factors) (h1 : timedata.length = 2 * st.nfft) (h2 : st.nfft < freqdata.length) :
    Temp [] (kissFftr A c st timedata freqdata) (fun r => r.length = freqdata.length) := by
  have h0 := hst.pos
  unfold kissFftr kissFft
  refine Temp.bind (kfWork_temp A c hint st.factors (N := st.nfft) hst (by simp) Nat.one_pos ?_) ?_
  · intro k hk
    rw [pairs_length, h1]; omega
  · intro tmp htmp
    obtain ⟨r, e1, e2⟩ := fftrUnpack_ok A h0 htmp h2
    exact Temp.lift e1 e2

theorem mapM_rd_ok {α : Type} {l : List α} {idx : ℕ → ℕ} {p : ℕ} (h : ∀ q, q < p → idx q < l.length) :
    ∃ r, (List.range p).mapM (fun q => rd l (idx q)) = some r ∧ r.length = p := by
  have : ∀ ks : List ℕ, (∀ q ∈ ks, idx q < l.length) →
      ∃ r, ks.mapM (fun q => rd l (idx q)) = some r ∧ r.length = ks.length := by
    intro ks
    induction ks with
    | nil => intro _; exact ⟨[], rfl, rfl⟩
    | cons k ks ih =>
      intro hk
      obtain ⟨r, h1, h2⟩ := ih (fun q hq => hk q (by simp [hq]))
      rw [List.mapM_cons, rd_eq (hk k (by simp)), h1]
      exact ⟨_, rfl, by simp [h2]⟩
  obtain ⟨r, h1, h2⟩ := this (List.range p) (fun q hq => h q (by simpa using hq))
  exact ⟨r, h1, by simpa using h2⟩

theorem dctStore_ok {F : List (Cpx S)} {shiftCap j length stride dist : ℕ} {f : List S} (hF : length ≤ F.length)
    (hs : length ≤ shiftCap) (hin : ∀ i, i < length → j * dist + i * stride < f.length) :
    ∃ r, dctStore A F shiftCap j length stride dist f = some r ∧ r.length = f.length := by
  unfold dctStore
  apply loop_inv (P := fun _ (l : List S) => l.length = f.length) (Nat.zero_le _) rfl
  intro i l _ hi hl
  rw [rd_cget A (show i < F.length by omega)]
  simp only [Option.bind_eq_bind, Option.bind_some]
  rw [if_pos (by omega), wr_eq (by rw [hl]; exact hin i hi)]
  exact ⟨_, rfl, by simpa using hl⟩

theorem dctRow_temp {st : FftCfg} {F0 : List (Cpx S)} {mirrorCap shiftCap j length stride dist : ℕ} {f : List S}
    (hint : 2 * st.nfft ≤ c.intMax) (hst : Stages st.nfft st.factors) (hn : st.nfft = length)
    (hm : length * 2 ≤ mirrorCap) (hs : length ≤ shiftCap) (hF : length < F0.length)
    (hin : ∀ i, i < length → j * dist + i * stride < f.length) :
    Temp [] (dctRow A c st F0 mirrorCap shiftCap j length stride dist f) (fun r => r.length = f.length) := by
  unfold dctRow
  obtain ⟨row, h1, h2⟩ := mapM_rd_ok hin
  refine Temp.bind (Temp.lift (P := fun r => r.length = length) h1 h2) ?_
  intro row hrow
  simp only
  rw [if_pos hm]
  refine Temp.bind (kissFftr_temp A c hint hst (by simp [hrow]; omega) (by omega)) ?_
  intro F hFl
  obtain ⟨r, e1, e2⟩ := dctStore_ok A (F := F) (shiftCap := shiftCap) (by omega) hs hin
  exact Temp.lift e1 e2

theorem kissDct_temp {st : FftCfg} {F0 : List (Cpx S)} {mirrorCap shiftCap n length stride dist : ℕ} {f : List S}
    (hint : 2 * st.nfft ≤ c.intMax) (hst : Stages st.nfft st.factors) (hn : st.nfft = length)
    (hm : length * 2 ≤ mirrorCap) (hs : length ≤ shiftCap) (hF : length < F0.length)
    (hin : ∀ j i, j < n → i < length → j * dist + i * stride < f.length) :
    Temp [] (kissDct A c st F0 mirrorCap shiftCap n length stride dist f) (fun r => r.length = f.length) := by
  unfold kissDct
  refine Temp.foldlM (P := fun (r : List S) => r.length = f.length) rfl ?_
  intro j hj l hl
  have hj : j < n := by simpa using hj
  refine Temp.mono (dctRow_temp A c hint hst hn hm hs hF ?_) (fun r hr => by omega)
  intro i hi
  rw [hl]; exact hin j i hj hi

/-- A KISS plan for `w` x `h` images, as `resdet_create_plan` delivers it. -/
structure KissGood (c : Cfg) (p : KissPlan) (w h : ℕ) where
  width : p.width = w
  height : p.height = h
  cfg0 : ℕ × FftCfg
  cfg1 : ℕ × FftCfg
  mirror : ℕ × ℕ
  F : ℕ × ℕ
  shift0 : ℕ × ℕ
  shift1 : ℕ × ℕ
  cfg0_eq : p.cfg0 = some cfg0
  cfg1_eq : p.cfg1 = some cfg1
  mirror_eq : p.mirror = some mirror
  F_eq : p.F = some F
  shift0_eq : p.shift0 = some shift0
  shift1_eq : p.shift1 = some shift1
  n0 : cfg0.2.nfft = w
  n1 : cfg1.2.nfft = h
  stages0 : Stages cfg0.2.nfft cfg0.2.factors
  stages1 : Stages cfg1.2.nfft cfg1.2.factors
  fac0 : kfFactor cfg0.2.nfft = some cfg0.2.factors
  fac1 : kfFactor cfg1.2.nfft = some cfg1.2.factors
  int0 : 2 * w ≤ c.intMax
  int1 : 2 * h ≤ c.intMax
  mirror0 : w * 2 ≤ mirror.2
  mirror1 : h * 2 ≤ mirror.2
  F0 : w < F.2
  F1 : h < F.2
  s0 : w ≤ shift0.2
  s1 : h ≤ shift1.2
  same : w = h → shift1 = shift0 ∧ cfg1 = cfg0
  capM : mirror.2 = (if w > h then w else h) * 2
  capF : F.2 = (if w > h then w else h) + 1
  cap0 : shift0.2 = w
  cap1 : shift1.2 = h

/-- The blocks a KISS plan owns. -/
def KissPlan.blocks (p : KissPlan) : List ℕ :=
  [p.block] ++ (blk p.cfg0).toList ++ (blk p.shift0).toList ++
    (if p.width = p.height then [] else (blk p.cfg1).toList ++ (blk p.shift1).toList) ++
    (blk p.mirror).toList ++ (blk p.F).toList

variable {A c}

theorem index_row {w h j i : ℕ} (hj : j < h) (hi : i < w) : j * w + i * 1 < w * h := by
  have : (j + 1) * w ≤ h * w := Nat.mul_le_mul_right _ hj
  rw [Nat.add_mul, Nat.one_mul, Nat.mul_comm h w] at this
  omega

theorem index_col {w h j i : ℕ} (hj : j < w) (hi : i < h) : j * 1 + i * w < w * h := by
  have := index_row (w := w) (h := h) hi hj
  omega

theorem kissTransform_temp {p : KissPlan} {w h : ℕ} (g : KissGood c p w h) {junk : Cpx S} {f : List S}
    (hf : f.length = w * h) : Temp p.blocks (kissTransform A c junk p f) (fun r => r.length = w * h) := by
  have hb : p.blocks = [p.block, g.cfg0.1, g.shift0.1] ++ (if w = h then [] else [g.cfg1.1, g.shift1.1]) ++
      [g.mirror.1, g.F.1] := by
    unfold KissPlan.blocks
    rw [g.cfg0_eq, g.cfg1_eq, g.mirror_eq, g.F_eq, g.shift0_eq, g.shift1_eq, g.width, g.height]
    simp [blk]
  have hc1 : g.cfg1.1 ∈ p.blocks := by
    rw [hb]
    by_cases e : w = h
    · rw [(g.same e).2]; simp
    · rw [if_neg e]; simp
  have hs1 : g.shift1.1 ∈ p.blocks := by
    rw [hb]
    by_cases e : w = h
    · rw [(g.same e).1]; simp
    · rw [if_neg e]; simp
  unfold kissTransform
  refine Temp.bind (Temp.touch (by rw [hb]; simp)) (fun _ _ => ?_)
  refine Temp.bind (Temp.need (P := fun x => x = g.cfg0) g.cfg0_eq rfl) ?_
  rintro _ rfl
  refine Temp.bind (Temp.need (P := fun x => x = g.cfg1) g.cfg1_eq rfl) ?_
  rintro _ rfl
  refine Temp.bind (Temp.need (P := fun x => x = g.mirror) g.mirror_eq rfl) ?_
  rintro _ rfl
  refine Temp.bind (Temp.need (P := fun x => x = g.F) g.F_eq rfl) ?_
  rintro _ rfl
  refine Temp.bind (Temp.need (P := fun x => x = g.shift0) g.shift0_eq rfl) ?_
  rintro _ rfl
  refine Temp.bind (Temp.need (P := fun x => x = g.shift1) g.shift1_eq rfl) ?_
  rintro _ rfl
  refine Temp.bind (Temp.touch (by rw [hb]; simp)) (fun _ _ => ?_)
  refine Temp.bind (Temp.touch hc1) (fun _ _ => ?_)
  refine Temp.bind (Temp.touch (by rw [hb]; simp)) (fun _ _ => ?_)
  refine Temp.bind (Temp.touch (by rw [hb]; simp)) (fun _ _ => ?_)
  refine Temp.bind (Temp.touch (by rw [hb]; simp)) (fun _ _ => ?_)
  refine Temp.bind (Temp.touch hs1) (fun _ _ => ?_)
  rw [g.width, g.height]
  refine Temp.bind (P := fun (r : List S) => r.length = w * h) ?_ ?_
  · refine Temp.weaken (Temp.mono (kissDct_temp A c (by rw [g.n0]; exact g.int0) g.stages0 g.n0 g.mirror0 g.s0
      (by rw [List.length_replicate]; exact g.F0) ?_) (fun r hr => by omega)) (by simp)
    intro j i hj hi
    rw [hf]; exact index_row hj hi
  · intro f' hf'
    refine Temp.weaken (Temp.mono (kissDct_temp A c (by rw [g.n1]; exact g.int1) g.stages1 g.n1 g.mirror1 g.s1
      (by rw [List.length_replicate]; exact g.F1) ?_) (fun r hr => by omega)) (by simp)
    intro j i hj hi
    rw [hf']; exact index_col hj hi

end Verif
