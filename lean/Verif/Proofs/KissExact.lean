import Verif.Proofs.Fourier
import Verif.Proofs.KissSafe

/-! The bundled transform in exact arithmetic. -/

namespace Verif
open Spec Complex

/-- With the blocks `L` alive and memory plentiful, `m` is defined, leaves the same blocks alive and delivers a value
with property `P`. -/
def Det {α : Type} (L : List ℕ) (m : M α) (P : α → Prop) : Prop :=
  ∀ w : World, (∀ b ∈ L, b ∈ w.live) → (∀ j, w.sched j = true) → ∃ a x y, m w = some (a, w.skip x y) ∧ P a

namespace Det
variable {α β : Type} {L : List ℕ} {P : α → Prop} {Q : β → Prop}

theorem pure {a : α} (h : P a) : Det L (Pure.pure a : M α) P := fun _ _ _ => ⟨a, 0, 0, rfl, h⟩

theorem lift {o : Option α} {a : α} (ho : o = some a) (h : P a) : Det L (M.lift o) P :=
  fun _ _ _ => ⟨a, 0, 0, by rw [ho]; rfl, h⟩

theorem touch {b : ℕ} (hb : b ∈ L) : Det L (Verif.touch b) (fun _ => True) :=
  fun w hw _ => ⟨(), 0, 0, by unfold Verif.touch; rw [if_pos (hw b hb)]; rfl, trivial⟩

theorem mono {m : M α} {P' : α → Prop} (h : Det L m P) (hP : ∀ a, P a → P' a) : Det L m P' := by
  intro w hw hs
  obtain ⟨a, x, y, h1, h2⟩ := h w hw hs
  exact ⟨a, x, y, h1, hP a h2⟩

theorem bind {m : M α} {f : α → M β} (hm : Det L m P) (hf : ∀ a, P a → Det L (f a) Q) : Det L (m >>= f) Q := by
  intro w hw hs
  obtain ⟨a, x, y, h1, h2⟩ := hm w hw hs
  obtain ⟨b, x', y', h3, h4⟩ := hf a h2 (w.skip x y) hw (fun j => hs _)
  refine ⟨b, x + x', y' + y, ?_, h4⟩
  rw [M.bind_some h1, h3, World.skip_skip]

/-- `malloc`, a computation, `free`. -/
theorem mallocFree {P : α → Prop} {a : α} {m : M α} (hm : Det [] m P) :
    Det L (do
      match ← malloc with
      | none => return a
      | some b =>
        let r ← m
        free (some b)
        return r) P := by
  intro w hw hs
  have e : malloc w = some (some w.next,
      { w with live := w.next :: w.live, next := w.next + 1, sched := advance w.sched }) := by
    unfold malloc; rw [if_pos (hs 0)]
  obtain ⟨r, x, y, h1, h2⟩ := hm
    { w with live := w.next :: w.live, next := w.next + 1, sched := advance w.sched } (by simp) (fun j => hs _)
  refine ⟨r, 1 + x, y + 1, ?_, h2⟩
  rw [M.bind_some e]
  simp only
  rw [M.bind_some h1, M.bind_some (a := ()) (w' := w.skip (1 + x) (y + 1))]
  · rfl
  · unfold free World.skip advance
    simp only [List.mem_cons, true_or, if_true, List.erase_cons_head]
    simp only [Nat.add_assoc]

theorem weaken {L' : List ℕ} {m : M α} (h : Det L m P) (hL : ∀ b ∈ L, b ∈ L') : Det L' m P :=
  fun w hw hs => h w (fun b hb => hw b (hL b hb)) hs

theorem foldlM {σ : Type} {P : ℕ → σ → Prop} {f : σ → ℕ → M σ} {n : ℕ} {s : σ} (h0 : P 0 s)
    (hf : ∀ i, i < n → ∀ s, P i s → Det L (f s i) (P (i + 1))) : Det L ((List.range n).foldlM f s) (P n) := by
  have : ∀ d a s, a + d ≤ n → P a s → Det L ((List.range' a d).foldlM f s) (P (a + d)) := by
    intro d
    induction d with
    | zero => intro a s _ h; exact Det.pure h
    | succ d ih =>
      intro a s hle h
      rw [List.range'_succ, List.foldlM_cons]
      refine bind (hf a (by omega) s h) (fun s' hs' => ?_)
      have := ih (a + 1) s' (by omega) hs'
      rwa [show a + 1 + d = a + (d + 1) by omega] at this
  have := this n 0 s (by omega) h0
  rwa [← List.range_eq_range', Nat.zero_add] at this

theorem collectM {body : ℕ → M (List α)} {ks : List ℕ} {len : ℕ} {P : ℕ → List α → Prop}
    (h : ∀ k ∈ ks, Det L (body k) (fun l => l.length = len ∧ P k l)) :
    Det L (Verif.collectM body ks) (fun r => r.length = ks.length * len ∧
      ∀ q (hq : q < ks.length), ∃ l, P ks[q] l ∧ ∀ k, k < len → r[k + q * len]? = l[k]?) := by
  induction ks with
  | nil => exact Det.pure ⟨by simp, fun q hq => absurd hq (by simp)⟩
  | cons k ks ih =>
    unfold Verif.collectM
    refine bind (h k (by simp)) (fun a ha => bind (ih (fun j hj => h j (by simp [hj]))) (fun b hb => Det.pure ?_))
    obtain ⟨ha1, ha2⟩ := ha
    obtain ⟨hb1, hb2⟩ := hb
    refine ⟨by rw [List.length_append, ha1, hb1, List.length_cons, Nat.add_mul]; omega, ?_⟩
    intro q hq
    cases q with
    | zero =>
      refine ⟨a, by simpa using ha2, ?_⟩
      intro j hj
      rw [Nat.zero_mul, Nat.add_zero, List.getElem?_append_left (by omega)]
    | succ q =>
      obtain ⟨l, h1, h2⟩ := hb2 q (by simpa using hq)
      refine ⟨l, by simpa using h1, ?_⟩
      intro j hj
      rw [List.getElem?_append_right (by rw [ha1, Nat.add_mul]; omega), ← h2 j hj]
      congr 1
      rw [ha1, Nat.add_mul]; omega

end Det

theorem dft_eq (n : ℕ) (x : ℕ → ℂ) (k : ℕ) : dft n x k = ∑ j ∈ Finset.range n, x j * W n (j * k) := by
  unfold dft W
  refine Finset.sum_congr rfl (fun j _ => ?_)
  congr 2
  push_cast
  ring

/-- A sum over `p * m` terms, grouped by remainder modulo `p`. -/
theorem sum_split {p m : ℕ} (g : ℕ → ℂ) :
    ∑ j ∈ Finset.range (p * m), g j = ∑ q ∈ Finset.range p, ∑ j ∈ Finset.range m, g (q + j * p) := by
  induction m with
  | zero => simp
  | succ m ih =>
    rw [Nat.mul_succ, Finset.sum_range_add, ih]
    simp only [Finset.sum_range_succ]
    rw [Finset.sum_add_distrib]
    congr 1
    refine Finset.sum_congr rfl (fun q _ => ?_)
    congr 1
    ring

/-- One decimation step. -/
theorem dft_step {p m : ℕ} (hp : 0 < p) (hm : 0 < m) (x : ℕ → ℂ) (k q : ℕ) :
    dft (p * m) x (k + q * m) =
      ∑ q' ∈ Finset.range p, dft m (fun j => x (q' + j * p)) k * W (p * m) (q' * (k + q * m)) := by
  rw [dft_eq, sum_split]
  refine Finset.sum_congr rfl (fun q' _ => ?_)
  rw [dft_eq, Finset.sum_mul]
  refine Finset.sum_congr rfl (fun j _ => ?_)
  rw [mul_assoc]
  congr 1
  rw [show (q' + j * p) * (k + q * m) = (p * (j * k) + q' * (k + q * m)) + p * m * (j * q) by ring, W_add, W_add,
    W_mul_self (by positivity), W_scale (by omega), mul_one]

theorem cget_of {A : Arith ℝ} {l l' : List (Cpx ℝ)} {i j : ℕ} (h : l[i]? = l'[j]?) : cget A l i = cget A l' j := by
  unfold cget; rw [h]

section
variable (c : Cfg)

theorem butterfly_det {st : FftCfg} {fstride m p : ℕ} {out : List (Cpx ℝ)} (hp : 0 < p) (hm : 0 < m)
    (hN : st.nfft = fstride * (p * m)) (hf : 0 < fstride) (hlen : out.length = p * m) (hint : 2 * st.nfft ≤ c.intMax) :
    Det [] (butterfly exact c st fstride m p out) (fun r => r.length = p * m ∧ ∀ k q, k < m → q < p →
      (cget exact r (k + q * m)).toC =
        bflySum st.nfft fstride p (fun q => (cget exact out (k + q * m)).toC) (k + q * m)) := by
  unfold butterfly
  split
  · obtain ⟨r, h1, h2⟩ := bfly2_sum hf hm hN hlen
    exact Det.lift h1 h2
  · obtain ⟨r, h1, h2⟩ := bfly3_sum hf hm hN hlen
    exact Det.lift h1 h2
  · obtain ⟨r, h1, h2⟩ := bfly4_sum hf hm hN hlen
    exact Det.lift h1 h2
  · obtain ⟨r, h1, h2⟩ := bfly5_sum hf hm hN hlen
    exact Det.lift h1 h2
  · obtain ⟨r, h1, h2⟩ := generic_sum hp hf hm hN hlen hint
    exact Det.mallocFree (Det.lift h1 h2)

theorem kfWork_det {st : FftCfg} {f : List (Cpx ℝ)} (hint : 2 * st.nfft ≤ c.intMax) (fs : List (ℕ × ℕ)) :
    ∀ {N off fstride : ℕ}, Stages N fs → st.nfft = fstride * N → 0 < fstride →
      (∀ k, k < N → off + k * fstride < f.length) →
      Det [] (kfWork exact c st f 1 fs off fstride) (fun r => r.length = N ∧ ∀ k, k < N →
        (cget exact r k).toC = dft N (fun j => (cget exact f (off + j * fstride)).toC) k) := by
  induction fs with
  | nil => intro N off fstride h; exact h.elim
  | cons x rest ih =>
    obtain ⟨p, m⟩ := x
    rintro N off fstride ⟨hp, hm, rfl, hrest⟩ hN hf hin
    unfold kfWork
    -- from the partial transforms to the whole
    have hbf : ∀ out : List (Cpx ℝ), (out.length = p * m ∧ ∀ q, q < p → ∀ k, k < m → (cget exact out (k + q * m)).toC =
          dft m (fun j => (cget exact f (off + (q + j * p) * fstride)).toC) k) →
        Det [] (butterfly exact c st fstride m p out) (fun r => r.length = p * m ∧ ∀ k, k < p * m →
          (cget exact r k).toC = dft (p * m) (fun j => (cget exact f (off + j * fstride)).toC) k) := by
      rintro out ⟨hout, hsub⟩
      refine Det.mono (butterfly_det c hp hm hN hf hout hint) ?_
      rintro r ⟨h1, h2⟩
      refine ⟨h1, ?_⟩
      intro K hK
      have hk : K % m < m := Nat.mod_lt _ hm
      have hq : K / m < p := by rw [Nat.div_lt_iff_lt_mul hm]; exact hK
      have hKe : K = K % m + K / m * m := by rw [Nat.mul_comm]; exact (Nat.mod_add_div K m).symm
      generalize K % m = k at *
      generalize K / m = q at *
      subst hKe
      rw [h2 k q hk hq, dft_step hp hm]
      unfold bflySum
      refine Finset.sum_congr rfl (fun q' hq' => ?_)
      simp only
      rw [hsub q' (by simpa using hq') k hk]
      congr 1
      rw [show q' * (fstride * (k + q * m)) = fstride * (q' * (k + q * m)) by ring, hN, W_scale (by omega)]
    simp only
    by_cases h1 : m = 1
    · subst h1
      rw [if_pos rfl]
      refine Det.bind (Det.mono (Det.collectM (len := 1) (P := fun k l => l = [cget exact f (off + k * fstride)]) ?_) ?_) hbf
      · intro k hk
        have hk : k < p := by simpa using hk
        have := hin k (by omega)
        rw [Nat.mul_one]
        exact Det.lift (a := [cget exact f (off + k * fstride)]) (by rw [rd_cget exact this]; rfl) ⟨rfl, rfl⟩
      · rintro l ⟨hl, hP⟩
        refine ⟨by simpa using hl, ?_⟩
        intro q hq k hk
        obtain ⟨l', e1, e2⟩ := hP q (by simpa using hq)
        have e2 := e2 k hk
        have hk0 : k = 0 := by omega
        subst hk0
        rw [cget_of e2, e1, dft_eq]
        simp [W_zero, cget]
    · rw [if_neg h1] at hrest ⊢
      refine Det.bind (Det.mono (Det.collectM (len := m) (P := fun q l => ∀ k, k < m → (cget exact l k).toC =
          dft m (fun j => (cget exact f (off + (q + j * p) * fstride)).toC) k) ?_) ?_) hbf
      · intro k hk
        have hk : k < p := by simpa using hk
        rw [Nat.mul_one]
        refine Det.mono (ih hrest (by rw [hN, Nat.mul_assoc]) (Nat.mul_pos hf hp) ?_) ?_
        · intro j hj
          have := hin (k + j * p) (stage_pos hk hj)
          have e : (k + j * p) * fstride = k * fstride + j * (fstride * p) := by ring
          omega
        · rintro r ⟨hr1, hr2⟩
          refine ⟨hr1, ?_⟩
          intro i hi
          rw [hr2 i hi]
          congr 1
          funext j
          congr 2
          ring
      · rintro l ⟨hl, hP⟩
        refine ⟨by simpa using hl, ?_⟩
        intro q hq k hk
        obtain ⟨l', e1, e2⟩ := hP q (by simpa using hq)
        rw [cget_of (e2 k hk), e1 k hk]
        simp

theorem kissFft_det {st : FftCfg} {x : List (Cpx ℝ)} (hint : 2 * st.nfft ≤ c.intMax)
    (hst : Stages st.nfft st.factors) (hx : st.nfft ≤ x.length) :
    Det [] (kissFft exact c st x) (fun r => r.length = st.nfft ∧ ∀ k, k < st.nfft →
      (cget exact r k).toC = dft st.nfft (fun j => (cget exact x j).toC) k) := by
  unfold kissFft
  refine Det.mono (kfWork_det c hint st.factors (N := st.nfft) hst (by simp) Nat.one_pos ?_) ?_
  · intro k hk; omega
  · rintro r ⟨h1, h2⟩
    refine ⟨h1, fun k hk => ?_⟩
    rw [h2 k hk]
    simp

theorem W_conj' {n a b k : ℕ} (hn : n ≠ 0) (h : a + b = n * k) : W n a = (starRingEnd ℂ) (W n b) := by
  have e : W n a * W n b = 1 := by rw [← W_add, h, W_mul_self hn]
  have hb : W n (n - b % n) = (starRingEnd ℂ) (W n b) := by
    rw [← W_mod hn b]
    exact W_conj hn (Nat.sub_add_cancel (Nat.mod_lt _ (by omega)).le)
  have hne : W n b ≠ 0 := Complex.exp_ne_zero _
  refine mul_right_cancel₀ hne (e.trans ?_)
  rw [← hb, ← W_mod hn b, ← W_add, Nat.sub_add_cancel (Nat.mod_lt _ (by omega)).le, W_self hn]

/-- The transform of a real sequence is symmetric. -/
theorem dft_conj {n k : ℕ} (hn : n ≠ 0) (hk : k ≤ n) (x : ℕ → ℝ) :
    dft n (fun j => (x j : ℂ)) (n - k) = (starRingEnd ℂ) (dft n (fun j => (x j : ℂ)) k) := by
  rw [dft_eq, dft_eq, map_sum]
  refine Finset.sum_congr rfl (fun j _ => ?_)
  rw [map_mul, Complex.conj_ofReal]
  congr 1
  refine W_conj' (k := j) hn ?_
  rw [← Nat.mul_add, Nat.sub_add_cancel hk, Nat.mul_comm]

/-- Even and odd samples. -/
theorem dft_double {n k : ℕ} (_hn : n ≠ 0) (x : ℕ → ℂ) :
    dft (2 * n) x k = dft n (fun j => x (2 * j)) k + W (2 * n) k * dft n (fun j => x (2 * j + 1)) k := by
  rw [dft_eq, sum_split, Finset.sum_range_succ, Finset.sum_range_succ, Finset.sum_range_zero, zero_add, dft_eq, dft_eq,
    Finset.mul_sum]
  congr 1
  · refine Finset.sum_congr rfl (fun j _ => ?_)
    rw [show 0 + j * 2 = 2 * j by ring, Nat.mul_assoc, W_scale (by norm_num)]
  · refine Finset.sum_congr rfl (fun j _ => ?_)
    rw [show 1 + j * 2 = 2 * j + 1 by ring, Nat.add_mul, W_add, Nat.mul_assoc, W_scale (by norm_num), Nat.one_mul]
    ring

/-- Element `i` of an array of reals, zero outside. -/
def rget (l : List ℝ) (i : ℕ) : ℝ := (l[i]?).getD 0

theorem cget_pairs (l : List ℝ) (j : ℕ) (h : 2 * j + 1 < l.length) :
    cget exact (pairs l) j = ⟨rget l (2 * j), rget l (2 * j + 1)⟩ := by
  induction l using pairs.induct generalizing j with
  | case1 a b rest ih =>
    cases j with
    | zero => simp [pairs, cget, rget]
    | succ j =>
      have := ih j (by simp only [List.length_cons] at h; omega)
      rw [pairs]
      unfold cget rget at this ⊢
      rw [show 2 * (j + 1) = 2 * j + 2 by ring, List.getElem?_cons_succ, this]
      simp
  | case2 t ht =>
    match t, ht with
    | [], _ => simp at h
    | [a], _ => simp at h
    | a :: b :: r, ht => exact absurd rfl (ht a b r)

theorem toC_stw {n k : ℕ} (hk : 0 < k) : (exact.superTwiddle n (k - 1)).toC = -Complex.I * W (2 * n) k := by
  obtain ⟨d, rfl⟩ : ∃ d, k = d + 1 := ⟨k - 1, by omega⟩
  show (circle _).toC = _
  rw [Nat.add_sub_cancel, circle_toC, W]
  have h : -Complex.I = Complex.exp (-(Real.pi / 2 * Complex.I)) := by
    rw [Complex.exp_neg, Complex.exp_pi_div_two_mul_I, Complex.inv_I]
  rw [h, ← Complex.exp_add]
  congr 1
  push_cast
  rcases Nat.eq_zero_or_pos n with rfl | hn
  · simp; ring
  · have : (n : ℂ) ≠ 0 := by exact_mod_cast hn.ne'
    field_simp
    ring

theorem fftrStep_spec {n k : ℕ} (hn : n ≠ 0) (hk : 0 < k) (hkn : k < n) (x : ℕ → ℝ) {a b : Cpx ℝ}
    (ha : a.toC = dft n (fun j => (⟨x (2 * j), x (2 * j + 1)⟩ : ℂ)) k)
    (hb : b.toC = dft n (fun j => (⟨x (2 * j), x (2 * j + 1)⟩ : ℂ)) (n - k)) :
    (fftrStep exact (exact.superTwiddle n (k - 1)) a b).1.toC = dft (2 * n) (fun j => (x j : ℂ)) k ∧
    (fftrStep exact (exact.superTwiddle n (k - 1)) a b).2.toC = dft (2 * n) (fun j => (x j : ℂ)) (n - k) := by
  have hz : ∀ k, dft n (fun j => (⟨x (2 * j), x (2 * j + 1)⟩ : ℂ)) k =
      dft n (fun j => (x (2 * j) : ℂ)) k + Complex.I * dft n (fun j => (x (2 * j + 1) : ℂ)) k := by
    intro k
    rw [dft_eq, dft_eq, dft_eq, Finset.mul_sum, ← Finset.sum_add_distrib]
    refine Finset.sum_congr rfl (fun j _ => ?_)
    rw [show (⟨x (2 * j), x (2 * j + 1)⟩ : ℂ) = x (2 * j) + Complex.I * x (2 * j + 1) by
      apply Complex.ext <;> simp]
    ring
  rw [hz] at ha hb
  rw [dft_conj hn hkn.le, dft_conj hn hkn.le] at hb
  rw [dft_double hn, dft_double hn (k := n - k), dft_conj hn hkn.le (fun j => x (2 * j)),
    dft_conj hn hkn.le (fun j => x (2 * j + 1))]
  have hw : W (2 * n) (n - k) = -(starRingEnd ℂ) (W (2 * n) k) := by
    have e : W (2 * n) (2 * n - k) = (starRingEnd ℂ) (W (2 * n) k) :=
      W_conj (by omega) (Nat.sub_add_cancel (by omega))
    have e2 : W (2 * n) n = -1 := by
      have := W_scale hn 2 1
      rw [Nat.mul_one, Nat.mul_comm, W_two_one] at this
      exact this
    rw [show 2 * n - k = n + (n - k) by omega, W_add, e2] at e
    rw [← e]; ring
  rw [hw]
  have hs := toC_stw (n := n) hk
  generalize exact.superTwiddle n (k - 1) = s at *
  generalize W (2 * n) k = W at *
  generalize dft n (fun j => (x (2 * j) : ℂ)) k = E at *
  generalize dft n (fun j => (x (2 * j + 1) : ℂ)) k = O at *
  have har : a.r = _ := congrArg Complex.re ha
  have hai : a.i = _ := congrArg Complex.im ha
  have hbr : b.r = _ := congrArg Complex.re hb
  have hbi : b.i = _ := congrArg Complex.im hb
  have hsr : s.r = _ := congrArg Complex.re hs
  have hsi : s.i = _ := congrArg Complex.im hs
  constructor <;> apply Complex.ext <;>
    simp [fftrStep, Arith.halfOf, Arith.cAdd, Arith.cSub, Arith.cMul, Cpx.toC, exact, har, hai, hbr, hbi, hsr, hsi] <;>
    ring

theorem cget_set_self {l : List (Cpx ℝ)} {i : ℕ} {v : Cpx ℝ} (h : i < l.length) : cget exact (l.set i v) i = v := by
  unfold cget; rw [List.getElem?_set_self h]; rfl

theorem cget_set_ne {l : List (Cpx ℝ)} {i j : ℕ} {v : Cpx ℝ} (h : i ≠ j) : cget exact (l.set i v) j = cget exact l j := by
  unfold cget; rw [List.getElem?_set_ne h]

theorem fftrUnpack_spec {st : FftCfg} {tmpbuf freqdata : List (Cpx ℝ)} (h0 : 0 < st.nfft) (h1 : tmpbuf.length = st.nfft)
    (h2 : st.nfft < freqdata.length) (x : ℕ → ℝ)
    (ht : ∀ k, k < st.nfft → (cget exact tmpbuf k).toC = dft st.nfft (fun j => (⟨x (2 * j), x (2 * j + 1)⟩ : ℂ)) k) :
    ∃ r, fftrUnpack exact st tmpbuf freqdata = some r ∧ r.length = freqdata.length ∧ ∀ k, k ≤ st.nfft →
      (cget exact r k).toC = dft (2 * st.nfft) (fun j => (x j : ℂ)) k := by
  set n := st.nfft with hn
  have hn0 : n ≠ 0 := by omega
  unfold fftrUnpack
  rw [rd_cget exact (show 0 < tmpbuf.length by omega)]
  simp only [Option.bind_eq_bind, Option.bind_some]
  rw [wr_eq (by omega), Option.bind_some, wr_eq (by rw [List.length_set]; omega), Option.bind_some]
  -- the values at both ends
  have hE0 : (cget exact tmpbuf 0).toC = (∑ j ∈ Finset.range n, (x (2 * j) : ℂ)) +
      Complex.I * ∑ j ∈ Finset.range n, (x (2 * j + 1) : ℂ) := by
    rw [ht 0 h0, dft_eq, Finset.mul_sum, ← Finset.sum_add_distrib]
    refine Finset.sum_congr rfl (fun j _ => ?_)
    rw [Nat.mul_zero, W_zero, mul_one]
    apply Complex.ext <;> simp
  have hX0 : dft (2 * n) (fun j => (x j : ℂ)) 0 = ((cget exact tmpbuf 0).r + (cget exact tmpbuf 0).i : ℝ) := by
    have hr : (cget exact tmpbuf 0).r = _ := congrArg Complex.re hE0
    have hi : (cget exact tmpbuf 0).i = _ := congrArg Complex.im hE0
    rw [dft_double hn0, dft_eq, dft_eq, hr, hi]
    simp only [Nat.mul_zero, W_zero, mul_one, one_mul]
    simp only [← Complex.ofReal_sum]
    simp
  have hXn : dft (2 * n) (fun j => (x j : ℂ)) n = ((cget exact tmpbuf 0).r - (cget exact tmpbuf 0).i : ℝ) := by
    have hr : (cget exact tmpbuf 0).r = _ := congrArg Complex.re hE0
    have hi : (cget exact tmpbuf 0).i = _ := congrArg Complex.im hE0
    have e2 : W (2 * n) n = -1 := by
      have := W_scale hn0 2 1
      rw [Nat.mul_one, Nat.mul_comm, W_two_one] at this
      exact this
    rw [dft_double hn0, dft_eq, dft_eq, hr, hi, e2]
    have e3 : ∀ j, W n (j * n) = 1 := fun j => by rw [Nat.mul_comm]; exact W_mul_self hn0 j
    simp only [e3, mul_one]
    simp only [← Complex.ofReal_sum]
    simp
    ring
  obtain ⟨r, e1, e2, e3⟩ := loop_inv (P := fun K (l : List (Cpx ℝ)) => l.length = freqdata.length ∧
      ∀ i, i ≤ n → (i < K ∨ n - i < K) → (cget exact l i).toC = dft (2 * n) (fun j => (x j : ℂ)) i)
    (lo := 1) (hi := n / 2 + 1)
    (body := fun k freqdata => (rd tmpbuf k).bind fun fpk => (rd tmpbuf (n - k)).bind fun fpnk =>
      (stwAt exact st (k - 1)).bind fun stw =>
        (wr freqdata k (fftrStep exact stw fpk fpnk).1).bind fun freqdata =>
          wr freqdata (n - k) (fftrStep exact stw fpk fpnk).2)
    (s := (freqdata.set 0 ⟨exact.add (cget exact tmpbuf 0).r (cget exact tmpbuf 0).i, exact.zero⟩).set n
      ⟨exact.sub (cget exact tmpbuf 0).r (cget exact tmpbuf 0).i, exact.zero⟩)
    (by omega)
    (by
      refine ⟨by simp, ?_⟩
      intro i hi hor
      by_cases hin : i = n
      · subst hin
        rw [cget_set_self (by rw [List.length_set]; omega), hXn]
        rfl
      · have : i = 0 := by omega
        subst this
        rw [cget_set_ne (by omega), cget_set_self (by omega), hX0]
        rfl)
    (by
      rintro k l hk1 hk2 ⟨hl, hP⟩
      have hkn : k < n ∨ k = n := by omega
      have hkn : k < n := by
        rcases hkn with h | h
        · exact h
        · omega
      rw [rd_cget exact (show k < tmpbuf.length by omega), rd_cget exact (show n - k < tmpbuf.length by omega),
        stwAt_eq exact (show k - 1 < st.nfft / 2 by omega)]
      simp only [Option.bind_some]
      rw [wr_eq (by omega), Option.bind_some, wr_eq (by rw [List.length_set]; omega)]
      obtain ⟨s1, s2⟩ := fftrStep_spec hn0 (by omega) hkn x (ht k hkn) (ht (n - k) (by omega))
      refine ⟨_, rfl, by simpa using hl, ?_⟩
      intro i hi hor
      by_cases hik : n - k = i
      · rw [hik, cget_set_self (by rw [List.length_set]; omega), ← hik]
        exact s2
      · rw [cget_set_ne hik]
        by_cases hik' : k = i
        · subst hik'
          rw [cget_set_self (by omega)]
          exact s1
        · rw [cget_set_ne hik']
          exact hP i hi (by omega))
  exact ⟨r, e1, e2, fun k hk => e3 k hk (by omega)⟩

theorem kissFftr_det {st : FftCfg} {timedata : List ℝ} {freqdata : List (Cpx ℝ)} (hint : 2 * st.nfft ≤ c.intMax)
    (hst : Stages st.nfft st.factors) (h1 : timedata.length = 2 * st.nfft) (h2 : st.nfft < freqdata.length) :
    Det [] (kissFftr exact c st timedata freqdata) (fun r => r.length = freqdata.length ∧ ∀ k, k ≤ st.nfft →
      (cget exact r k).toC = dft (2 * st.nfft) (fun j => (rget timedata j : ℂ)) k) := by
  have h0 := hst.pos
  unfold kissFftr
  refine Det.bind (kissFft_det c hint hst ?_) ?_
  · rw [pairs_length, h1]; omega
  · rintro tmp ⟨htmp, hval⟩
    obtain ⟨r, e1, e2⟩ := fftrUnpack_spec h0 htmp h2 (rget timedata) (by
      intro k hk
      rw [hval k hk, dft_eq, dft_eq]
      refine Finset.sum_congr rfl (fun j hj => ?_)
      have hj : j < st.nfft := by simpa using hj
      rw [cget_pairs _ _ (by omega)]
      rfl)
    exact Det.lift e1 e2

/-- The spectrum of a sequence followed by its mirror image, shifted by half a sample, is its cosine transform. -/
theorem dct_of_dft {n k : ℕ} (hn : 0 < n) (x : ℕ → ℝ) (y : ℕ → ℝ) (h1 : ∀ j, j < n → y j = x j)
    (h2 : ∀ j, j < n → y (2 * n - 1 - j) = x j) :
    (dft (2 * n) (fun j => (y j : ℂ)) k * (exact.shift n k).toC).re = dct n x k := by
  have hs : (exact.shift n k).toC = W (4 * n) k := by
    show (circle _).toC = _
    rw [circle_toC, W]
    congr 1
    push_cast
    have : (n : ℂ) ≠ 0 := by exact_mod_cast hn.ne'
    field_simp
    ring
  have hsum : dft (2 * n) (fun j => (y j : ℂ)) k =
      ∑ j ∈ Finset.range n, (x j : ℂ) * (W (2 * n) (j * k) + W (2 * n) ((2 * n - 1 - j) * k)) := by
    rw [dft_eq, Nat.two_mul, Finset.sum_range_add]
    simp only [← Nat.two_mul]
    have e : ∑ j ∈ Finset.range n, (y (n + j) : ℂ) * W (2 * n) ((n + j) * k) =
        ∑ j ∈ Finset.range n, (x j : ℂ) * W (2 * n) ((2 * n - 1 - j) * k) := by
      rw [← Finset.sum_range_reflect]
      refine Finset.sum_congr rfl (fun j hj => ?_)
      have hj : j < n := by simpa using hj
      rw [show n + (n - 1 - j) = 2 * n - 1 - j by omega, h2 j hj]
    rw [e, ← Finset.sum_add_distrib]
    refine Finset.sum_congr rfl (fun j hj => ?_)
    have hj : j < n := by simpa using hj
    rw [h1 j hj]
    ring
  have hc : ∀ j, j < n → W (2 * n) (j * k) * W (4 * n) k = W (4 * n) ((2 * j + 1) * k) ∧
      W (2 * n) ((2 * n - 1 - j) * k) * W (4 * n) k = (starRingEnd ℂ) (W (4 * n) ((2 * j + 1) * k)) := by
    intro j hj
    have sc : ∀ a, W (2 * n) a = W (4 * n) (2 * a) := by
      intro a
      rw [show 4 * n = 2 * (2 * n) by ring, W_scale (by norm_num)]
    constructor
    · rw [sc, ← W_add]; congr 1; ring
    · rw [sc, ← W_add]
      refine W_conj' (k := k) (by omega) ?_
      obtain ⟨d, hd⟩ : ∃ d, 2 * n = d + 1 + j := ⟨2 * n - 1 - j, by omega⟩
      rw [show 2 * n - 1 - j = d by omega, show 4 * n = 2 * (2 * n) by ring, hd]
      ring
  rw [hsum, hs, Finset.sum_mul, Complex.re_sum]
  unfold dct
  rw [Finset.mul_sum]
  refine Finset.sum_congr rfl (fun j hj => ?_)
  have hj : j < n := by simpa using hj
  obtain ⟨c1, c2⟩ := hc j hj
  rw [mul_assoc, add_mul, c1, c2, Complex.re_ofReal_mul, Complex.add_re, Complex.conj_re]
  have hre : (W (4 * n) ((2 * j + 1) * k)).re = Real.cos (Real.pi * (j + 1 / 2) * k / n) := by
    have e : W (4 * n) ((2 * j + 1) * k) = Complex.exp ((-(Real.pi * (j + 1 / 2) * k / n) : ℝ) * Complex.I) := by
      unfold W
      congr 1
      push_cast
      have : (n : ℂ) ≠ 0 := by exact_mod_cast hn.ne'
      field_simp
      ring
    rw [e, Complex.exp_ofReal_mul_I_re, Real.cos_neg]
  rw [hre]
  ring

theorem rd_rget {l : List ℝ} {i : ℕ} (h : i < l.length) : rd l i = some (rget l i) := by
  rw [rd_eq h]; unfold rget; rw [List.getElem?_eq_getElem h]; rfl

theorem rget_set_self {l : List ℝ} {i : ℕ} {v : ℝ} (h : i < l.length) : rget (l.set i v) i = v := by
  unfold rget; rw [List.getElem?_set_self h]; rfl

theorem rget_set_ne {l : List ℝ} {i j : ℕ} {v : ℝ} (h : i ≠ j) : rget (l.set i v) j = rget l j := by
  unfold rget; rw [List.getElem?_set_ne h]

theorem mapM_rget {l : List ℝ} {idx : ℕ → ℕ} {p : ℕ} (h : ∀ q, q < p → idx q < l.length) :
    (List.range p).mapM (fun q => rd l (idx q)) = some ((List.range p).map (fun q => rget l (idx q))) := by
  have : ∀ ks : List ℕ, (∀ q ∈ ks, idx q < l.length) →
      ks.mapM (fun q => rd l (idx q)) = some (ks.map (fun q => rget l (idx q))) := by
    intro ks
    induction ks with
    | nil => intro _; rfl
    | cons k ks ih =>
      intro hk
      rw [List.mapM_cons, rd_rget (hk k (by simp)), ih (fun q hq => hk q (by simp [hq]))]
      rfl
  exact this _ (fun q hq => h q (by simpa using hq))

/-- Positions addressed by `(j, i)` for `j < n`, `i < length` are distinct. -/
def Inj (n length stride dist : ℕ) : Prop :=
  ∀ j j' i i', j < n → j' < n → i < length → i' < length → j * dist + i * stride = j' * dist + i' * stride →
    j = j' ∧ i = i'

theorem dctStore_spec {F : List (Cpx ℝ)} {shiftCap j n length stride dist : ℕ} {f : List ℝ} (hF : length ≤ F.length)
    (hs : length ≤ shiftCap) (hin : ∀ i, i < length → j * dist + i * stride < f.length) (hj : j < n)
    (hinj : Inj n length stride dist) :
    ∃ r, dctStore exact F shiftCap j length stride dist f = some r ∧ r.length = f.length ∧
      (∀ i, i < length → rget r (j * dist + i * stride) = ((cget exact F i).toC * (exact.shift length i).toC).re) ∧
      (∀ p, (∀ i, i < length → j * dist + i * stride ≠ p) → rget r p = rget f p) := by
  unfold dctStore
  obtain ⟨r, e1, e2, e3, e4⟩ := loop_inv (P := fun K (l : List ℝ) => l.length = f.length ∧
      (∀ i, i < K → rget l (j * dist + i * stride) = ((cget exact F i).toC * (exact.shift length i).toC).re) ∧
      (∀ p, (∀ i, i < length → j * dist + i * stride ≠ p) → rget l p = rget f p))
    (lo := 0) (hi := length)
    (body := fun i f => do
      let Fi ← rd F i
      if i < shiftCap then
        let s := exact.shift length i
        wr f (j * dist + i * stride) (exact.store (exact.sub (exact.mul Fi.r s.r) (exact.mul Fi.i s.i)))
      else none) (s := f) (Nat.zero_le _) ⟨rfl, fun i hi => absurd hi (by omega), fun _ _ => rfl⟩
    (by
      rintro i l - hi ⟨hl, hv, ho⟩
      rw [rd_cget exact (show i < F.length by omega)]
      simp only [Option.bind_eq_bind, Option.bind_some]
      rw [if_pos (by omega), wr_eq (by rw [hl]; exact hin i hi)]
      refine ⟨_, rfl, by simpa using hl, ?_, ?_⟩
      · intro i' hi'
        by_cases h : i' = i
        · subst h
          rw [rget_set_self (by rw [hl]; exact hin i' hi)]
          simp [Cpx.toC, exact]
        · rw [rget_set_ne (fun e => h (hinj _ _ _ _ hj hj hi (by omega) e).2.symm), hv i' (by omega)]
      · intro p hp
        rw [rget_set_ne (hp i hi), ho p hp])
  exact ⟨r, e1, e2, e3, e4⟩

theorem dctRow_det {st : FftCfg} {F0 : List (Cpx ℝ)} {mirrorCap shiftCap j n length stride dist : ℕ} {f : List ℝ}
    (hint : 2 * st.nfft ≤ c.intMax) (hst : Stages st.nfft st.factors) (hn : st.nfft = length)
    (hm : length * 2 ≤ mirrorCap) (hs : length ≤ shiftCap) (hF : length < F0.length)
    (hin : ∀ i, i < length → j * dist + i * stride < f.length) (hj : j < n) (hinj : Inj n length stride dist) :
    Det [] (dctRow exact c st F0 mirrorCap shiftCap j length stride dist f) (fun r => r.length = f.length ∧
      (∀ i, i < length → rget r (j * dist + i * stride) = dct length (fun i => rget f (j * dist + i * stride)) i) ∧
      (∀ p, (∀ i, i < length → j * dist + i * stride ≠ p) → rget r p = rget f p)) := by
  have h0 := hst.pos
  unfold dctRow
  refine Det.bind (Det.lift (P := fun r => r = (List.range length).map (fun i => rget f (j * dist + i * stride)))
    (mapM_rget hin) rfl) ?_
  rintro row rfl
  simp only
  rw [if_pos hm, show exact.load = id from rfl, List.map_id]
  set row := (List.range length).map (fun i => rget f (j * dist + i * stride)) with hrow
  have hrl : row.length = length := by simp [hrow]
  have hrg : ∀ i, i < length → rget row i = rget f (j * dist + i * stride) := by
    intro i hi
    rw [hrow]; conv_lhs => unfold rget
    rw [List.getElem?_map, List.getElem?_range hi]; rfl
  refine Det.bind (kissFftr_det c hint hst (by simp [hrl]; omega) (by omega)) ?_
  rintro F ⟨hFl, hFv⟩
  obtain ⟨r, e1, e2, e3, e4⟩ := dctStore_spec (F := F) (shiftCap := shiftCap) (f := f) (by omega) hs hin hj hinj
  refine Det.lift e1 ⟨e2, ?_, e4⟩
  intro i hi
  rw [e3 i hi, hFv i (by omega), hn]
  apply dct_of_dft (by omega)
  · intro k hk
    rw [← hrg k hk]
    unfold rget
    rw [List.getElem?_append_left (by omega)]
  · intro k hk
    rw [← hrg k hk]
    unfold rget
    rw [List.getElem?_append_right (by omega), List.getElem?_reverse (by omega)]
    congr 2
    omega

theorem kissDct_det {st : FftCfg} {F0 : List (Cpx ℝ)} {mirrorCap shiftCap n length stride dist : ℕ} {f : List ℝ}
    (hint : 2 * st.nfft ≤ c.intMax) (hst : Stages st.nfft st.factors) (hn : st.nfft = length)
    (hm : length * 2 ≤ mirrorCap) (hs : length ≤ shiftCap) (hF : length < F0.length)
    (hin : ∀ j i, j < n → i < length → j * dist + i * stride < f.length) (hinj : Inj n length stride dist) :
    Det [] (kissDct exact c st F0 mirrorCap shiftCap n length stride dist f) (fun r => r.length = f.length ∧
      ∀ j i, j < n → i < length →
        rget r (j * dist + i * stride) = dct length (fun i => rget f (j * dist + i * stride)) i) := by
  unfold kissDct
  refine Det.mono (Det.foldlM (P := fun J (r : List ℝ) => r.length = f.length ∧ ∀ j i, j < n → i < length →
      rget r (j * dist + i * stride) = if j < J then dct length (fun i => rget f (j * dist + i * stride)) i
        else rget f (j * dist + i * stride)) ⟨rfl, by intro j i _ _; rw [if_neg (by omega)]⟩ ?_) ?_
  · rintro J hJ l ⟨hl, hv⟩
    refine Det.mono (dctRow_det c hint hst hn hm hs hF (n := n)
      (fun i hi => by rw [hl]; exact hin J i hJ hi) hJ hinj) ?_
    rintro r ⟨hr1, hr2, hr3⟩
    refine ⟨by omega, ?_⟩
    intro j i hj hi
    by_cases hjJ : j = J
    · subst hjJ
      rw [hr2 i hi, if_pos (by omega)]
      unfold dct
      congr 1
      refine Finset.sum_congr rfl (fun i' hi' => ?_)
      simp only
      rw [hv j i' hj (by simpa using hi'), if_neg (by omega)]
    · rw [hr3 _ (fun i' hi' e => hjJ (hinj _ _ _ _ hJ hj hi' hi e).1.symm), hv j i hj hi]
      by_cases h : j < J
      · rw [if_pos h, if_pos (by omega)]
      · rw [if_neg h, if_neg (by omega)]
  · rintro r ⟨hr1, hr2⟩
    refine ⟨hr1, fun j i hj hi => ?_⟩
    rw [hr2 j i hj hi, if_pos hj]

end

theorem inj_row {w h : ℕ} : Inj h w 1 w := by
  intro j j' i i' _ _ hi hi' e
  rw [Nat.mul_one, Nat.mul_one] at e
  have hj : j = j' := by
    have h1 : (j * w + i) / w = j := by
      rw [Nat.mul_comm, Nat.mul_add_div (by omega), Nat.div_eq_of_lt hi, Nat.add_zero]
    have h2 : (j' * w + i') / w = j' := by
      rw [Nat.mul_comm, Nat.mul_add_div (by omega), Nat.div_eq_of_lt hi', Nat.add_zero]
    rw [← h1, ← h2, e]
  subst hj
  exact ⟨rfl, by omega⟩

theorem inj_col {w h : ℕ} : Inj w h w 1 := by
  intro j j' i i' hj hj' hi hi' e
  have := inj_row (w := w) (h := h) i i' j j' hi hi' hj hj' (by omega)
  exact ⟨this.2, this.1⟩

theorem kissTransform_det {c : Cfg} {p : KissPlan} {w h : ℕ} (g : KissGood c p w h) {junk : Cpx ℝ} {f : List ℝ}
    (hf : f.length = w * h) : Det p.blocks (kissTransform exact c junk p f) (fun r => r.length = w * h ∧
      ∀ u v, u < w → v < h → rget r (v * w + u) = dct2 w h (fun i j => rget f (j * w + i)) u v) := by
  have hb : p.blocks = [p.block, g.cfg0.1, g.shift0.1] ++ (if w = h then [] else [g.cfg1.1, g.shift1.1]) ++
      [g.mirror.1, g.F.1] := by
    unfold KissPlan.blocks
    rw [g.cfg0_eq, g.cfg1_eq, g.mirror_eq, g.F_eq, g.shift0_eq, g.shift1_eq, g.width, g.height]
    simp [blk]
  have hc1 : g.cfg1.1 ∈ p.blocks := by
    rw [hb]
    by_cases e : w = h
    · rw [(g.same e).2]; simp
    · rw [if_neg e]; simp
  have hs1 : g.shift1.1 ∈ p.blocks := by
    rw [hb]
    by_cases e : w = h
    · rw [(g.same e).1]; simp
    · rw [if_neg e]; simp
  unfold kissTransform
  refine Det.bind (Det.touch (by rw [hb]; simp)) (fun _ _ => ?_)
  refine Det.bind (Det.lift (P := fun x => x = g.cfg0) g.cfg0_eq rfl) ?_
  rintro _ rfl
  refine Det.bind (Det.lift (P := fun x => x = g.cfg1) g.cfg1_eq rfl) ?_
  rintro _ rfl
  refine Det.bind (Det.lift (P := fun x => x = g.mirror) g.mirror_eq rfl) ?_
  rintro _ rfl
  refine Det.bind (Det.lift (P := fun x => x = g.F) g.F_eq rfl) ?_
  rintro _ rfl
  refine Det.bind (Det.lift (P := fun x => x = g.shift0) g.shift0_eq rfl) ?_
  rintro _ rfl
  refine Det.bind (Det.lift (P := fun x => x = g.shift1) g.shift1_eq rfl) ?_
  rintro _ rfl
  refine Det.bind (Det.touch (by rw [hb]; simp)) (fun _ _ => ?_)
  refine Det.bind (Det.touch hc1) (fun _ _ => ?_)
  refine Det.bind (Det.touch (by rw [hb]; simp)) (fun _ _ => ?_)
  refine Det.bind (Det.touch (by rw [hb]; simp)) (fun _ _ => ?_)
  refine Det.bind (Det.touch (by rw [hb]; simp)) (fun _ _ => ?_)
  refine Det.bind (Det.touch hs1) (fun _ _ => ?_)
  rw [g.width, g.height]
  refine Det.bind (Det.weaken (kissDct_det c (by rw [g.n0]; exact g.int0) g.stages0 g.n0 g.mirror0 g.s0
      (by rw [List.length_replicate]; exact g.F0) (n := h) (stride := 1) (dist := w) (f := f) ?_ inj_row) (by simp)) ?_
  · intro j i hj hi
    rw [hf]; exact index_row hj hi
  · rintro f' ⟨hf', hv'⟩
    refine Det.weaken (Det.mono (kissDct_det c (by rw [g.n1]; exact g.int1) g.stages1 g.n1 g.mirror1 g.s1
      (by rw [List.length_replicate]; exact g.F1) (n := w) (stride := w) (dist := 1) (f := f') ?_ inj_col) ?_) (by simp)
    · intro j i hj hi
      rw [hf', hf]; exact index_col hj hi
    · rintro r ⟨hr, hv⟩
      refine ⟨by omega, ?_⟩
      intro u v hu hvh
      have := hv u v hu hvh
      rw [Nat.mul_one, Nat.add_comm] at this
      rw [this]
      unfold dct2
      rw [dct, dct]
      congr 1
      refine Finset.sum_congr rfl (fun j hj => ?_)
      have hj : j < h := by simpa using hj
      have := hv' j u hj hu
      rw [Nat.mul_one] at this
      rw [Nat.add_comm, this]
      simp only [Nat.mul_one]

end Verif
