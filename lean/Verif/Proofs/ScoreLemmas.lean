import Verif.Proofs.HistoryLemmas
import Verif.Proofs.FloatLemmas

/-! Bounds on scores. -/

namespace Verif

open Spec

theorem deliver_nn (F : Fmt) {v : ℚ} (h0 : 0 ≤ v) (h : F.rnd v < pow2 F.emax) : F.deliver false v = .fin false (F.rnd v) := by
  unfold Fmt.deliver
  split
  · rename_i h1; rw [h1, F.rnd_zero]
  · simp only
    rw [if_neg (by rw [abs_of_nonneg (F.rnd_nonneg h0)]; exact not_le.mpr h)]
    simp [h0]

theorem Fmt.WF.emax_big {F : Fmt} (hF : F.WF) : (2 : ℚ) ^ F.p ≤ pow2 F.emax := F.two_pow_p_le hF

theorem one_lt_emax {F : Fmt} (hF : F.WF) : (1 : ℚ) < pow2 F.emax := by
  have h1 := hF.p_pos
  have h2 := F.two_pow_p_le hF
  have : (2 : ℚ) ^ 1 ≤ 2 ^ F.p := pow_le_pow_right₀ (by norm_num) h1
  linarith

theorem rnd_unit {F : Fmt} (hF : F.WF) {v : ℚ} (h0 : 0 ≤ v) (h1 : v ≤ 1) : 0 ≤ F.rnd v ∧ F.rnd v ≤ 1 := by
  refine ⟨F.rnd_nonneg h0, ?_⟩
  have := F.rnd_mono hF.p_pos h1
  rwa [F.rnd_one hF] at this

theorem deliver_unit {F : Fmt} (hF : F.WF) {v : ℚ} (h0 : 0 ≤ v) (h1 : v ≤ 1) :
    F.deliver false v = .fin false (F.rnd v) :=
  deliver_nn F h0 (lt_of_le_of_lt (rnd_unit hF h0 h1).2 (one_lt_emax hF))

theorem conv_unit {F : Fmt} (hF : F.WF) {x : Fl} (h : InUnit x) : InUnit (F.conv x) := by
  obtain ⟨s, v, rfl, h0, h1⟩ := h
  obtain ⟨r0, r1⟩ := rnd_unit hF h0 h1
  simp only [Fmt.conv]
  unfold Fmt.deliver
  split
  · exact ⟨_, _, rfl, le_rfl, zero_le_one⟩
  · simp only
    rw [if_neg (by rw [abs_of_nonneg r0]; exact not_le.mpr (lt_of_le_of_lt r1 (one_lt_emax hF)))]
    exact ⟨_, _, rfl, r0, r1⟩

theorem ofNat_exact {F : Fmt} (hF : F.WF) (hr : (F.p : ℤ) < F.emax) {n : ℕ} (hn : n ≤ 2 ^ F.p) :
    F.ofNat n = .fin false n := by
  unfold Fmt.ofNat
  have h1 := F.rnd_natCast hF hn
  rw [deliver_nn F (Nat.cast_nonneg n), h1]
  rw [h1]
  calc (n : ℚ) ≤ 2 ^ F.p := by exact_mod_cast hn
    _ = pow2 F.p := (pow2_natCast _).symm
    _ < pow2 F.emax := pow2_lt hr

theorem rnd_le_pow2 {F : Fmt} (hF : F.WF) {v : ℚ} {e : ℤ} (he : F.qmin ≤ e) (h : v ≤ pow2 e) : F.rnd v ≤ pow2 e := by
  have h1 := F.rnd_mono hF.p_pos h
  have h2 : F.rnd (pow2 e) = pow2 e := by
    unfold Fmt.rnd
    rw [if_neg (by have := pow2_pos e; linarith)]
    exact F.rndAbs_pow2 hF.p_pos he
  rwa [h2] at h1

theorem Spec.Precise.big {c : Cfg} (hp : Precise c) (hF : c.inter.WF) {v : ℚ} (h : v ≤ 2 ^ (2 * c.inter.p)) :
    c.inter.rnd v < pow2 c.inter.emax := by
  have h1 : v ≤ pow2 ((2 * c.inter.p : ℕ) : ℤ) := by rw [pow2_natCast]; exact h
  refine lt_of_le_of_lt (rnd_le_pow2 hF ?_ h1) (pow2_lt ?_)
  · have := hF.qmin_le; omega
  · have := hp.room; push_cast; omega

theorem Spec.Precise.p_lt {c : Cfg} (hp : Precise c) : (c.inter.p : ℤ) < c.inter.emax := by
  have := hp.room; omega

theorem one_le_rnd {F : Fmt} (hF : F.WF) {n : ℕ} (h : 1 ≤ n) : (1 : ℚ) ≤ F.rnd n := by
  have := F.natCast_le_rnd hF (v := n) (n := 1) Nat.one_le_two_pow (by exact_mod_cast h)
  simpa using this

/-- The exact value of a ratio. -/
theorem ratio_eq {c : Cfg} (hF : c.inter.WF) (hp : Precise c) {k a b : ℕ} (ha : a ≤ 2 ^ c.inter.p)
    (hb : b ≤ 2 ^ c.inter.p) (ha0 : 0 < a) (hb0 : 0 < b) (hk : k ≤ a * b) :
    ratio c k a b = .fin false (c.inter.rnd (c.inter.rnd k / c.inter.rnd ((a * b : ℕ) : ℚ))) ∧
      0 ≤ c.inter.rnd k / c.inter.rnd ((a * b : ℕ) : ℚ) ∧ c.inter.rnd k / c.inter.rnd ((a * b : ℕ) : ℚ) ≤ 1 := by
  have hab : a * b ≤ 2 ^ (2 * c.inter.p) := by
    rw [two_mul, pow_add]; exact Nat.mul_le_mul ha hb
  have hab' : ((a * b : ℕ) : ℚ) ≤ 2 ^ (2 * c.inter.p) := by exact_mod_cast hab
  have hk' : (k : ℚ) ≤ ((a * b : ℕ) : ℚ) := by exact_mod_cast hk
  have hm := c.inter.rnd_mono hF.p_pos hk'
  have hk0 := c.inter.rnd_nonneg (v := (k : ℚ)) (Nat.cast_nonneg k)
  have hab1 : (1 : ℚ) ≤ c.inter.rnd ((a * b : ℕ) : ℚ) := one_le_rnd hF (Nat.mul_pos ha0 hb0)
  have h0 : 0 ≤ c.inter.rnd k / c.inter.rnd ((a * b : ℕ) : ℚ) := div_nonneg hk0 (by linarith)
  have h1 : c.inter.rnd k / c.inter.rnd ((a * b : ℕ) : ℚ) ≤ 1 := by
    rw [div_le_one (by linarith)]; exact hm
  refine ⟨?_, h0, h1⟩
  unfold ratio
  rw [ofNat_exact hF hp.p_lt ha, ofNat_exact hF hp.p_lt hb]
  unfold Fmt.ofNat
  rw [deliver_nn c.inter (Nat.cast_nonneg k) (hp.big hF (le_trans hk' hab'))]
  unfold Fmt.mul
  simp only [Bool.xor_false]
  rw [show (a : ℚ) * b = ((a * b : ℕ) : ℚ) by push_cast; rfl,
    deliver_nn c.inter (Nat.cast_nonneg _) (hp.big hF hab')]
  unfold Fmt.div
  simp only
  rw [if_neg (by linarith), Bool.xor_false, deliver_unit hF h0 h1]

theorem ratio_unit {c : Cfg} (hF : c.inter.WF) (hp : Precise c) {k a b : ℕ} (ha : a ≤ 2 ^ c.inter.p)
    (hb : b ≤ 2 ^ c.inter.p) (ha0 : 0 < a) (hb0 : 0 < b) (hk : k ≤ a * b) :
    ∃ v, ratio c k a b = .fin false v ∧ 0 ≤ v ∧ v ≤ 1 := by
  obtain ⟨h1, h2, h3⟩ := ratio_eq hF hp ha hb ha0 hb0 hk
  exact ⟨_, h1, rnd_unit hF h2 h3⟩

theorem ratio_full {c : Cfg} (hF : c.inter.WF) (hp : Precise c) {a b : ℕ} (ha : a ≤ 2 ^ c.inter.p)
    (hb : b ≤ 2 ^ c.inter.p) (ha0 : 0 < a) (hb0 : 0 < b) : ratio c (a * b) a b = .fin false 1 := by
  have hab1 : (1 : ℚ) ≤ c.inter.rnd ((a * b : ℕ) : ℚ) := one_le_rnd hF (Nat.mul_pos ha0 hb0)
  rw [(ratio_eq hF hp ha hb ha0 hb0 le_rfl).1, div_self (by linarith), c.inter.rnd_one hF]

theorem signMatches_le (g : ℕ → ℕ → Fl) (n range x : ℕ) : signMatches g n range x ≤ n * range := by
  unfold signMatches
  refine le_trans (Finset.card_filter_le _ _) ?_
  simp [Finset.card_product]

theorem pairMatches_le (hit : Fl → Fl → Bool) (g : ℕ → ℕ → Fl) (n range x : ℕ) :
    pairMatches hit g n range x ≤ n * range := by
  unfold pairMatches
  refine le_trans (Finset.card_filter_le _ _) ?_
  simp [Finset.card_product]

theorem crossings_le (g : ℕ → ℕ → Fl) (n x : ℕ) : crossings g n x ≤ n := by
  unfold crossings
  refine le_trans (Finset.card_filter_le _ _) ?_
  simp

/-- One frame's score is between 0 and 1. -/
theorem frameScore_unit {s : Sys} (hF : s.cfg.inter.WF) (hp : Precise s.cfg) {d : Detect} {g : ℕ → ℕ → Fl} {n range x : ℕ}
    (hn : n ≤ 2 ^ s.cfg.inter.p) (hr : range ≤ 2 ^ s.cfg.inter.p) (hn0 : 0 < n) (hr0 : 0 < range) {v : Fl}
    (h : frameScore s d g n range x = some v) : ∃ q, v = .fin false q ∧ 0 ≤ q ∧ q ≤ 1 := by
  cases d with
  | sign =>
    cases h
    exact ratio_unit hF hp hn hr hn0 hr0 (signMatches_le _ _ _ _)
  | mag =>
    cases h
    exact ratio_unit hF hp hn hr hn0 hr0 (pairMatches_le _ _ _ _ _)
  | orig =>
    unfold frameScore at h
    simp only at h
    split at h
    · cases h
      exact ratio_unit hF hp hr hn hr0 hn0 (by rw [Nat.mul_comm]; exact signMatches_le _ _ _ _)
    · cases h
  | zerox =>
    cases h
    have hk : crossings g n x ≤ 2 ^ s.cfg.inter.p := le_trans (crossings_le _ _ _) hn
    have hq : (crossings g n x : ℚ) ≤ n := by exact_mod_cast crossings_le _ _ _
    have hn' : (0 : ℚ) < n := by exact_mod_cast hn0
    have h0 : (0 : ℚ) ≤ crossings g n x / n := div_nonneg (Nat.cast_nonneg _) (Nat.cast_nonneg _)
    have h1 : (crossings g n x : ℚ) / n ≤ 1 := by rw [div_le_one hn']; exact hq
    rw [ofNat_exact hF hp.p_lt hn, ofNat_exact hF hp.p_lt hk]
    unfold Fmt.div
    simp only
    rw [if_neg (ne_of_gt hn'), Bool.xor_false, deliver_unit hF h0 h1]
    exact ⟨_, rfl, rnd_unit hF h0 h1⟩

/-- Adding a score in 0..1 to a sum of at most `k` gives at most `k+1`. -/
theorem addScore_le {s : Sys} (hF : s.cfg.inter.WF) (hp : Precise s.cfg) {o : Option Fl}
    (ho : ∀ v, o = some v → ∃ q, v = .fin false q ∧ 0 ≤ q ∧ q ≤ 1) {u : ℚ} {k : ℕ} (hk : k + 1 ≤ 2 ^ s.cfg.inter.p)
    (hu0 : 0 ≤ u) (hu : u ≤ k) : ∃ v, addScore s.cfg (.fin false u) o = .fin false v ∧ 0 ≤ v ∧ v ≤ (k + 1 : ℕ) := by
  cases o with
  | none => exact ⟨u, rfl, hu0, by push_cast; linarith⟩
  | some v =>
    obtain ⟨q, rfl, h0, h1⟩ := ho v rfl
    unfold addScore Fmt.add
    simp only [Bool.and_self]
    have hb : u + q ≤ (k + 1 : ℕ) := by push_cast; linarith
    have hr := s.cfg.inter.rnd_le_natCast hF hk hb
    have h2 : s.cfg.inter.rnd (u + q) < pow2 s.cfg.inter.emax := by
      refine lt_of_le_of_lt hr (lt_of_le_of_lt ?_ (pow2_lt hp.p_lt))
      rw [pow2_natCast]; exact_mod_cast hk
    rw [deliver_nn _ (by linarith) h2]
    exact ⟨_, rfl, s.cfg.inter.rnd_nonneg (by linarith), hr⟩

/-- The sum of the scores of `k` frames is between 0 and `k`. -/
theorem total_le {s : Sys} (hF : s.cfg.inter.WF) (hp : Precise s.cfg) {d : Detect} {g : List Fl → ℕ → ℕ → Fl}
    {n range x : ℕ} (hn : n ≤ 2 ^ s.cfg.inter.p) (hr : range ≤ 2 ^ s.cfg.inter.p) (hn0 : 0 < n) (hr0 : 0 < range)
    {fs : List (List Fl)} (hk : fs.length ≤ 2 ^ s.cfg.inter.p) :
    ∃ v, total s d g n range fs x = .fin false v ∧ 0 ≤ v ∧ v ≤ fs.length := by
  induction fs using List.reverseRecOn with
  | nil => exact ⟨0, rfl, le_rfl, by simp⟩
  | append_singleton fs f ih =>
    rw [List.length_append, List.length_singleton] at hk
    obtain ⟨u, h1, h2, h3⟩ := ih (by omega)
    unfold total at *
    rw [List.foldl_append, List.foldl_cons, List.foldl_nil, h1, List.length_append, List.length_singleton]
    exact addScore_le hF hp (fun v hv => frameScore_unit hF hp hn hr hn0 hr0 hv) hk h2 h3

theorem mean_unit {c : Cfg} (hF : c.inter.WF) (hp : Precise c) {v : ℚ} {k : ℕ} (hk0 : 0 < k) (hk : k ≤ 2 ^ c.inter.p)
    (h0 : 0 ≤ v) (h1 : v ≤ k) : mean c (.fin false v) k = .fin false (c.inter.rnd (v / k)) ∧ 0 ≤ v / k ∧ v / k ≤ 1 := by
  have hk' : (0 : ℚ) < k := by exact_mod_cast hk0
  have e0 : 0 ≤ v / k := div_nonneg h0 hk'.le
  have e1 : v / k ≤ 1 := by rw [div_le_one hk']; exact h1
  refine ⟨?_, e0, e1⟩
  unfold mean
  rw [ofNat_exact hF hp.p_lt hk]
  unfold Fmt.div
  simp only
  rw [if_neg (ne_of_gt hk'), Bool.xor_false, deliver_unit hF e0 e1]

/-- The list of a dimension: candidates in some order, then the input size. -/
theorem dimList_shape {s : Sys} {a : Analysis} (ht : InUnit a.params.threshold) {length : ℕ} {result : Option (Buf Fl)} :
    ∃ init, dimList s a length result = init ++ [sentinel length] ∧
      init.Perm (candidates s.cfg a.params a.nimages length (scores result)) ∧
      (dimList s a length result).Pairwise (fun a b => a.confidence.ge b.confidence = true) := by
  have hc := dim_consistent (s := s) (nimages := a.nimages) (length := length) (data := scores result) ht
  have hperm := s.env.sorter_perm _ hc
  have hsort := s.env.sorter_sorted _ hc
  have hnn : ∀ r ∈ candidates s.cfg a.params a.nimages length (scores result), NN r.confidence :=
    fun r hr => candidates_nn ht hr
  have hpw : (dimList s a length result).Pairwise (fun a b => a.confidence.ge b.confidence = true) := by
    refine List.Pairwise.imp_of_mem ?_ hsort
    intro x y hx hy hxy
    have nx : Num x.confidence := by
      rcases List.mem_cons.mp (hperm.mem_iff.mp hx) with rfl | h
      · rfl
      · exact (hnn _ h).num
    have ny : Num y.confidence := by
      rcases List.mem_cons.mp (hperm.mem_iff.mp hy) with rfl | h
      · rfl
      · exact (hnn _ h).num
    have h1 : x.confidence.lt y.confidence = false := by
      by_contra h
      rw [Bool.not_eq_false] at h
      have := sortres_pos.mpr h
      omega
    revert nx ny h1
    cases x.confidence <;> cases y.confidence <;> simp [Fl.ge, Num, Fl.isnan]
  have hne : dimList s a length result ≠ [] := by
    intro h
    have : dimList s a length result = s.env.sorter (sentinel length ::
      candidates s.cfg a.params a.nimages length (scores result)) := rfl
    rw [← this, h] at hperm
    simpa using hperm.length_eq
  obtain ⟨init, z, hz⟩ : ∃ init z, dimList s a length result = init ++ [z] :=
    ⟨_, _, (List.dropLast_append_getLast hne).symm⟩
  have hp2 : (init ++ [z]).Perm (sentinel length :: candidates s.cfg a.params a.nimages length (scores result)) := by
    rw [← hz]; exact hperm
  have hzs : z = sentinel length := by
    rcases List.mem_cons.mp (hp2.mem_iff.mp (show z ∈ init ++ [z] by simp)) with h | h
    · exact h
    · exfalso
      have hmem : sentinel length ∈ init ++ [z] := hp2.mem_iff.mpr (by simp)
      rcases List.mem_append.mp hmem with hm | hm
      · rw [hz, List.pairwise_append] at hpw
        have := hpw.2.2 _ hm z (by simp)
        have hz := hnn z h
        revert this
        rcases hz with hz | ⟨b, v, hz, hv⟩ <;> rw [hz] <;> simp [Fl.ge, Fl.lt, sentinel]
        linarith
      · simp only [List.mem_singleton] at hm
        rw [← hm] at h
        rcases hnn _ h with h | ⟨b, v, h, hv⟩
        · simp [sentinel] at h
        · simp only [sentinel, Fl.fin.injEq] at h
          rw [← h.2] at hv
          norm_num at hv
  subst hzs
  refine ⟨init, hz, ?_, hpw⟩
  have : (sentinel length :: init).Perm (sentinel length :: candidates s.cfg a.params a.nimages length (scores result)) :=
    (List.perm_append_comm.trans (List.Perm.refl _)).symm.trans hp2 |>.symm.symm
  exact List.Perm.cons_inv this

/-- Everything the property theorems need to know about a successful results call. -/
structure Got (s : Sys) (m : Option Method) (w h : ℕ) (p : Option Params) (ev : List (Call × Obs)) (a : Analysis)
    (rw : Option (List Res)) (cw : ℕ) (rh : Option (List Res)) (ch : ℕ) : Prop where
  inv : Inv s m w h p ev a
  nimages : a.nimages ≠ 0
  listX : ∀ l, rw = some l → l = dimList s a w a.xresult
  listY : ∀ l, rh = some l → l = dimList s a h a.yresult
  cw : cw = (rw.map List.length).getD 0
  ch : ch = (rh.map List.length).getD 0

theorem returned_got {s : Sys} (hs : Build s) {m : Option Method} (hm : ValidMethod? m) {p : Option Params}
    (hp : ValidParams? s.cfg p) {w h : ℕ} {ev : List (Call × Obs)} {a : Analysis} {rw rh : Option (List Res)} {cw ch : ℕ}
    (hr : Returned s m w h p ev a rw cw rh ch) : Got s m w h p ev a rw cw rh ch := by
  obtain ⟨hr, c, a', hl, hstep⟩ := hr
  have hinv := reach_inv hs hm hp hr
  obtain ⟨ptr, _, _, _, _, hn, h1, h2, h3, h4⟩ := results_obs hs hinv.good hl hstep
  rw [hinv.width] at h1
  rw [hinv.height] at h2
  refine ⟨hinv, hn, ?_, ?_, h3, h4⟩
  · rintro l rfl
    split at h1
    · exact Option.some.inj h1
    · cases h1
  · rintro l rfl
    split at h2
    · exact Option.some.inj h2
    · cases h2

theorem Inv.threshold {s : Sys} {m : Option Method} {w h : ℕ} {p : Option Params} {ev : List (Call × Obs)} {a : Analysis}
    (h : Inv s m w h p ev a) : InUnit a.params.threshold := h.good.threshold

theorem Inv.count {s : Sys} {m : Option Method} {w h : ℕ} {p : Option Params} {ev : List (Call × Obs)} {a : Analysis}
    (h : Inv s m w h p ev a) (hk : (analysed ev).length ≤ s.cfg.sizeMax) : a.nimages = (analysed ev).length := by
  rw [h.nimages]; exact Cfg.sz_eq hk

theorem Inv.side {s : Sys} (hp : Precise s.cfg) {m : Option Method} {w h : ℕ} {p : Option Params}
    {ev : List (Call × Obs)} {a : Analysis} (hi : Inv s m w h p ev a) :
    a.width ≤ 2 ^ s.cfg.inter.p ∧ a.height ≤ 2 ^ s.cfg.inter.p :=
  ⟨le_trans (le_trans hi.good.sideX sideMax_le) hp.sides, le_trans (le_trans hi.good.sideY sideMax_le) hp.sides⟩

/-- Scores after at most `k` frames. -/
def Bounded (k : ℕ) (l : List Fl) : Prop := ∀ x ∈ l, ∃ v, x = .fin false v ∧ 0 ≤ v ∧ v ≤ (k : ℚ)

theorem Bounded.mono {k k' : ℕ} {l : List Fl} (h : Bounded k l) (hk : k ≤ k') : Bounded k' l := by
  intro x hx
  obtain ⟨v, h1, h2, h3⟩ := h x hx
  have : (k : ℚ) ≤ k' := by exact_mod_cast hk
  exact ⟨v, h1, h2, by linarith⟩

theorem Bounded.upd {s : Sys} (hF : s.cfg.inter.WF) (hp : Precise s.cfg) {d : Detect} {g : ℕ → ℕ → Fl} {n range : ℕ}
    (hn : n ≤ 2 ^ s.cfg.inter.p) (hr : range ≤ 2 ^ s.cfg.inter.p) (hn0 : 0 < n) (hr0 : 0 < range) {k : ℕ}
    (hk : k + 1 ≤ 2 ^ s.cfg.inter.p) {r : Option (Buf Fl)} (h : Bounded k (scores r)) :
    Bounded (k + 1) (scores (updBuf s d g n range r)) := by
  have e : scores (updBuf s d g n range r) = updScores s d g n range (scores r) := by cases r <;> rfl
  rw [e]
  intro x hx
  unfold updScores at hx
  rw [List.mem_mapIdx] at hx
  obtain ⟨i, hi, rfl⟩ := hx
  obtain ⟨v, h1, h2, h3⟩ := h _ (List.getElem_mem hi)
  rw [h1]
  exact addScore_le hF hp (fun v hv => frameScore_unit hF hp hn hr hn0 hr0 hv) hk h2 h3

theorem Bounded.zero {n : ℕ} : Bounded 0 (List.replicate n (.fin false 0)) := by
  intro x hx
  rw [List.eq_of_mem_replicate hx]
  exact ⟨0, rfl, le_rfl, by simp⟩

theorem scores_none : scores none = [] := rfl

theorem scores_nil_of_small {length range : ℕ} {r : Option (Buf Fl)} {b : Option (ℕ × ℕ)} (h : DimGood length range r b)
    (hs : ¬ 2 * range < length) : scores r = [] := by
  unfold DimGood at h
  rw [if_neg hs] at h
  rw [h]; rfl

theorem Bounded.nil {k : ℕ} : Bounded k [] := by intro x hx; cases hx

/-- Whatever happened, scores are finite and between 0 and the number of calls. -/
theorem reach_bounded {s : Sys} (hs : Build s) (hpr : Precise s.cfg) {m : Option Method} (hm : ValidMethod? m)
    {p : Option Params} (hp : ValidParams? s.cfg p) {w h : ℕ} {ev : List (Call × Obs)} {a : Analysis}
    (hr : Reach s m w h p ev a) (hk : ev.length ≤ 2 ^ s.cfg.inter.p) :
    Bounded ev.length (scores a.xresult) ∧ Bounded ev.length (scores a.yresult) := by
  have hF := hs.wf.inter_wf
  induction hr with
  | @create a _ _ _ hwd hc =>
    obtain ⟨hf, _⟩ := createAnalysis_good hs hm hp hwd hc
    constructor
    · cases hx : a.xresult with
      | none => exact Bounded.nil
      | some b => show Bounded 0 b.data; rw [hf.xzero b hx]; exact Bounded.zero
    · cases hx : a.yresult with
      | none => exact Bounded.nil
      | some b => show Bounded 0 b.data; rw [hf.yzero b hx]; exact Bounded.zero
  | @call ev a a' c o hr hl hstep ih =>
    have hinv := reach_inv hs hm hp hr
    have hg := hinv.good
    rw [List.length_append, List.length_singleton] at hk
    obtain ⟨hx, hy⟩ := ih (by omega)
    rw [List.length_append, List.length_singleton]
    obtain ⟨hw2, hh2⟩ := hinv.side hpr
    have hX : ∀ f, Bounded (ev.length + 1) (scores (updBuf s a.method.func (rows f a.width) a.height a.params.range
        a.xresult)) := by
      intro f
      by_cases hsm : 2 * a.params.range < a.width
      · exact hx.upd hF hpr hh2 (by omega) hg.height_pos hg.range_pos hk
      · rw [scores_nil_of_small (updBuf_dim hg.x) hsm]; exact Bounded.nil
    have hY : ∀ f, Bounded (ev.length + 1) (scores (updBuf s a.method.func (cols f a.width) a.width a.params.range
        a.yresult)) := by
      intro f
      by_cases hsm : 2 * a.params.range < a.height
      · exact hy.upd hF hpr hw2 (by omega) hg.width_pos hg.range_pos hk
      · rw [scores_nil_of_small (updBuf_dim hg.y) hsm]; exact Bounded.nil
    have hx' := hx.mono (Nat.le_succ _)
    have hy' := hy.mono (Nat.le_succ _)
    cases step_ok hs hg hl hstep with
    | results => exact ⟨hx', hy'⟩
    | analyze image e _ hop h =>
      cases h with
      | param => exact ⟨hx', hy'⟩
      | inval => exact ⟨hx', hy'⟩
      | frame im fb p f w' _ _ h1 h2 h3 h4 h5 h6 h7 =>
        cases h7 with
        | ok => exact ⟨hX f, hY f⟩
        | nomemX => exact ⟨hx', hy'⟩
        | nomemY => exact ⟨hX f, hy'⟩

theorem mem_candidates {c : Cfg} {p : Params} {nimages length : ℕ} {data : List Fl} {r : Res} :
    r ∈ candidates c p nimages length data ↔ ∃ i, ∃ h : i < data.length, isKept c p nimages length data i = true ∧
      r = ⟨p.range + i, binary32.conv (mean c data[i] nimages)⟩ := by
  unfold candidates
  simp only [List.mem_map, List.mem_filter, List.mem_range]
  constructor
  · rintro ⟨i, ⟨hi, hk⟩, rfl⟩
    exact ⟨i, hi, hk, by rw [List.getElem?_eq_getElem hi]; rfl⟩
  · rintro ⟨i, hi, hk, rfl⟩
    exact ⟨i, ⟨hi, hk⟩, by rw [List.getElem?_eq_getElem hi]; rfl⟩

theorem candidates_nodup {c : Cfg} {p : Params} {nimages length : ℕ} {data : List Fl} :
    ((candidates c p nimages length data).map Res.index).Nodup := by
  unfold candidates
  rw [List.map_map]
  refine List.Nodup.map ?_ (List.Nodup.filter _ List.nodup_range)
  intro i j h
  simpa using h

theorem spectra_unique {s : Sys} {a : Analysis} {ev : List (Call × Obs)} {f1 f2 : List (List Fl)}
    (h1 : Spectra s a ev f1) (h2 : Spectra s a ev f2) : f1 = f2 := by
  unfold Spectra at *
  generalize analysed ev = L at *
  induction h1 generalizing f2 with
  | nil => cases h2; rfl
  | cons hx _ ih =>
    cases h2 with
    | cons hy ht =>
      rw [ih ht]
      congr 1
      obtain ⟨i1, p1, w1, e1, e2, e3⟩ := hx
      obtain ⟨i2, p2, w2, e4, e5, e6⟩ := hy
      rw [e1] at e4; cases e4
      rw [e2] at e5; cases e5
      rw [e3] at e6; cases e6
      rfl

theorem conv_unit_eq {F : Fmt} (hF : F.WF) {b : Bool} {t : ℚ} (h : InUnit (.fin b t)) :
    ∃ b', F.conv (.fin b t) = .fin b' (F.rnd t) := by
  obtain ⟨_, _, e, h0, h1⟩ := h
  cases e
  obtain ⟨r0, r1⟩ := rnd_unit hF h0 h1
  simp only [Fmt.conv]
  unfold Fmt.deliver
  split
  · rename_i h; exact ⟨_, by rw [h, F.rnd_zero]⟩
  · simp only
    rw [if_neg (by rw [abs_of_nonneg r0]; exact not_le.mpr (lt_of_le_of_lt r1 (one_lt_emax hF)))]
    exact ⟨_, rfl⟩

theorem ge_conv_mono {F : Fmt} (hF : F.WF) {t1 t2 x : Fl} (h1 : InUnit t1) (h2 : InUnit t2) (ht : t2.ge t1 = true)
    (hx : x.ge (F.conv t2) = true) : x.ge (F.conv t1) = true := by
  obtain ⟨b1, v1, rfl, p1, q1⟩ := h1
  obtain ⟨b2, v2, rfl, p2, q2⟩ := h2
  obtain ⟨c1, e1⟩ := conv_unit_eq hF (b := b1) ⟨b1, v1, rfl, p1, q1⟩
  obtain ⟨c2, e2⟩ := conv_unit_eq hF (b := b2) ⟨b2, v2, rfl, p2, q2⟩
  have htt : v1 ≤ v2 := by simpa [Fl.ge, Fl.lt] using ht
  have hc := F.rnd_mono hF.p_pos htt
  rw [e2] at hx
  rw [e1]
  revert hx
  cases x with
  | nan => simp [Fl.ge]
  | inf b => cases b <;> simp [Fl.ge, Fl.lt]
  | fin _ v => simp only [Fl.ge, Fl.lt, Bool.not_eq_true', decide_eq_false_iff_not, not_lt]; intro h; linarith

/-- A number of the format in 0..K. -/
def Rep (F : Fmt) (K : ℕ) (x : Fl) : Prop := ∃ v, x = .fin false v ∧ 0 ≤ v ∧ v ≤ (K : ℚ) ∧ F.rnd v = v

theorem ratio_rep {c : Cfg} (hF : c.inter.WF) (hp : Precise c) {k a b : ℕ} (ha : a ≤ 2 ^ c.inter.p)
    (hb : b ≤ 2 ^ c.inter.p) (ha0 : 0 < a) (hb0 : 0 < b) (hk : k ≤ a * b) : Rep c.inter 1 (ratio c k a b) := by
  obtain ⟨h1, h2, h3⟩ := ratio_eq hF hp ha hb ha0 hb0 hk
  obtain ⟨r0, r1⟩ := rnd_unit hF h2 h3
  exact ⟨_, h1, r0, by simpa using r1, c.inter.rnd_idem hF.p_pos _⟩

theorem frameScore_rep {s : Sys} (hF : s.cfg.inter.WF) (hp : Precise s.cfg) {d : Detect} {g : ℕ → ℕ → Fl} {n range x : ℕ}
    (hn : n ≤ 2 ^ s.cfg.inter.p) (hr : range ≤ 2 ^ s.cfg.inter.p) (hn0 : 0 < n) (hr0 : 0 < range) {v : Fl}
    (h : frameScore s d g n range x = some v) : Rep s.cfg.inter 1 v := by
  cases d with
  | sign =>
    cases h
    exact ratio_rep hF hp hn hr hn0 hr0 (signMatches_le _ _ _ _)
  | mag =>
    cases h
    exact ratio_rep hF hp hn hr hn0 hr0 (pairMatches_le _ _ _ _ _)
  | orig =>
    unfold frameScore at h
    simp only at h
    split at h
    · cases h
      exact ratio_rep hF hp hr hn hr0 hn0 (by rw [Nat.mul_comm]; exact signMatches_le _ _ _ _)
    · cases h
  | zerox =>
    obtain ⟨q, h1, h2, h3⟩ := frameScore_unit hF hp hn hr hn0 hr0 h
    refine ⟨q, h1, h2, by simpa using h3, ?_⟩
    cases h
    have hk : crossings g n x ≤ 2 ^ s.cfg.inter.p := le_trans (crossings_le _ _ _) hn
    have hq : (crossings g n x : ℚ) ≤ n := by exact_mod_cast crossings_le _ _ _
    have hn' : (0 : ℚ) < n := by exact_mod_cast hn0
    have h0 : (0 : ℚ) ≤ crossings g n x / n := div_nonneg (Nat.cast_nonneg _) (Nat.cast_nonneg _)
    have h1' : (crossings g n x : ℚ) / n ≤ 1 := by rw [div_le_one hn']; exact hq
    rw [ofNat_exact hF hp.p_lt hn, ofNat_exact hF hp.p_lt hk] at h1
    unfold Fmt.div at h1
    simp only at h1
    rw [if_neg (ne_of_gt hn'), Bool.xor_false, deliver_unit hF h0 h1'] at h1
    cases h1
    exact s.cfg.inter.rnd_idem hF.p_pos _

theorem addScore_rep {s : Sys} (hF : s.cfg.inter.WF) (hp : Precise s.cfg) {o : Option Fl}
    (ho : ∀ v, o = some v → Rep s.cfg.inter 1 v) {x : Fl} {k : ℕ} (hk : k + 1 ≤ 2 ^ s.cfg.inter.p)
    (hx : Rep s.cfg.inter k x) : Rep s.cfg.inter (k + 1) (addScore s.cfg x o) ∧
      |val (addScore s.cfg x o) - (val x + val (o.getD (.fin false 0)))| ≤ (k + 1 : ℕ) * pow2 (-s.cfg.inter.p) := by
  obtain ⟨u, rfl, hu0, hu, hur⟩ := hx
  cases o with
  | none =>
    refine ⟨⟨u, rfl, hu0, by push_cast; linarith, hur⟩, ?_⟩
    simp only [addScore, val, Option.getD]
    rw [add_zero, sub_self, abs_zero]
    have := pow2_pos (-s.cfg.inter.p : ℤ)
    positivity
  | some v =>
    obtain ⟨q, rfl, h0, h1, _⟩ := ho v rfl
    have h1 : q ≤ 1 := by simpa using h1
    have hb : u + q ≤ (k + 1 : ℕ) := by push_cast; linarith
    have hr := s.cfg.inter.rnd_le_natCast hF hk hb
    have h2 : s.cfg.inter.rnd (u + q) < pow2 s.cfg.inter.emax := by
      refine lt_of_le_of_lt hr (lt_of_le_of_lt ?_ (pow2_lt hp.p_lt))
      rw [pow2_natCast]; exact_mod_cast hk
    have e : addScore s.cfg (.fin false u) (some (.fin false q)) = .fin false (s.cfg.inter.rnd (u + q)) := by
      unfold addScore Fmt.add
      simp only [Bool.and_self]
      rw [deliver_nn _ (by linarith) h2]
    rw [e]
    refine ⟨⟨_, rfl, s.cfg.inter.rnd_nonneg (by linarith), hr, s.cfg.inter.rnd_idem hF.p_pos _⟩, ?_⟩
    simp only [val, Option.getD]
    exact s.cfg.inter.rnd_err hF (by omega) (by linarith) hb

/-- The total is representable, and off the exact sum by at most `k * k * 2^-p`. -/
theorem total_rep {s : Sys} (hF : s.cfg.inter.WF) (hp : Precise s.cfg) {d : Detect} {g : List Fl → ℕ → ℕ → Fl}
    {n range x : ℕ} (hn : n ≤ 2 ^ s.cfg.inter.p) (hr : range ≤ 2 ^ s.cfg.inter.p) (hn0 : 0 < n) (hr0 : 0 < range)
    {fs : List (List Fl)} (hk : fs.length ≤ 2 ^ s.cfg.inter.p) :
    Rep s.cfg.inter fs.length (total s d g n range fs x) ∧
      |val (total s d g n range fs x) -
        (fs.map (fun f => val ((frameScore s d (g f) n range x).getD (.fin false 0)))).sum| ≤
          fs.length * fs.length * pow2 (-s.cfg.inter.p) := by
  have hpp := pow2_pos (-s.cfg.inter.p : ℤ)
  induction fs using List.reverseRecOn with
  | nil => exact ⟨⟨0, rfl, le_rfl, by simp, s.cfg.inter.rnd_zero⟩, by simp [total, val]⟩
  | append_singleton fs f ih =>
    rw [List.length_append, List.length_singleton] at hk
    obtain ⟨h1, h2⟩ := ih (by omega)
    have e : total s d g n range (fs ++ [f]) x = addScore s.cfg (total s d g n range fs x)
        (frameScore s d (g f) n range x) := by
      unfold total; rw [List.foldl_append, List.foldl_cons, List.foldl_nil]
    rw [e, List.length_append, List.length_singleton]
    obtain ⟨h3, h4⟩ := addScore_rep hF hp (o := frameScore s d (g f) n range x)
      (fun v hv => frameScore_rep hF hp hn hr hn0 hr0 hv) hk h1
    refine ⟨h3, ?_⟩
    rw [List.map_append, List.sum_append, List.map_singleton, List.sum_singleton]
    set S := (fs.map (fun f => val ((frameScore s d (g f) n range x).getD (.fin false 0)))).sum
    set q := val ((frameScore s d (g f) n range x).getD (.fin false 0))
    set T := val (total s d g n range fs x)
    set N := val (addScore s.cfg (total s d g n range fs x) (frameScore s d (g f) n range x))
    have h5 : N - (S + q) = (N - (T + q)) + (T - S) := by ring
    rw [h5]
    refine le_trans (abs_add_le _ _) ?_
    push_cast at h4 ⊢
    have hk0 : (0 : ℚ) ≤ fs.length := Nat.cast_nonneg _
    nlinarith

/-- The mean over one frame is that frame's score. -/
theorem meanAt_single {s : Sys} (hF : s.cfg.inter.WF) (hp : Precise s.cfg) {d : Detect} {g : List Fl → ℕ → ℕ → Fl}
    {n range x : ℕ} (hn : n ≤ 2 ^ s.cfg.inter.p) (hr : range ≤ 2 ^ s.cfg.inter.p) (hn0 : 0 < n) (hr0 : 0 < range)
    (f : List Fl) : meanAt s d g n range [f] x = (frameScore s d (g f) n range x).getD (.fin false 0) := by
  have hone : 1 ≤ 2 ^ s.cfg.inter.p := Nat.one_le_two_pow
  have key : ∀ q : ℚ, 0 ≤ q → q ≤ 1 → s.cfg.inter.rnd q = q → mean s.cfg (.fin false q) 1 = .fin false q := by
    intro q h0 h1 hq
    obtain ⟨e, _, _⟩ := mean_unit hF hp (v := q) (k := 1) Nat.one_pos hone h0 (by simpa using h1)
    rw [e]; simp [hq]
  unfold meanAt total
  simp only [List.foldl_cons, List.foldl_nil, List.length_singleton]
  cases ho : frameScore s d (g f) n range x with
  | none =>
    simp only [addScore, Option.getD]
    exact key 0 le_rfl zero_le_one s.cfg.inter.rnd_zero
  | some v =>
    obtain ⟨q, rfl, h0, h1, hq⟩ := frameScore_rep hF hp hn hr hn0 hr0 ho
    have h1 : q ≤ 1 := by simpa using h1
    simp only [addScore, Option.getD, Fmt.add, zero_add, Bool.and_self]
    rw [deliver_unit hF h0 h1, hq]
    exact key q h0 h1 hq

/-- The total is the left-to-right floating point sum of the single-frame means. -/
theorem total_sum {s : Sys} (hF : s.cfg.inter.WF) (hp : Precise s.cfg) {d : Detect} {g : List Fl → ℕ → ℕ → Fl}
    {n range x : ℕ} (hn : n ≤ 2 ^ s.cfg.inter.p) (hr : range ≤ 2 ^ s.cfg.inter.p) (hn0 : 0 < n) (hr0 : 0 < range)
    {fs : List (List Fl)} (hk : fs.length ≤ 2 ^ s.cfg.inter.p) :
    total s d g n range fs x = fsum s.cfg.inter (fs.map (fun f => meanAt s d g n range [f] x)) := by
  induction fs using List.reverseRecOn with
  | nil => rfl
  | append_singleton fs f ih =>
    rw [List.length_append, List.length_singleton] at hk
    have h1 := (total_rep hF hp (d := d) (g := g) (x := x) hn hr hn0 hr0 (fs := fs) (by omega)).1
    have ih := ih (by omega)
    have e : total s d g n range (fs ++ [f]) x = addScore s.cfg (total s d g n range fs x)
        (frameScore s d (g f) n range x) := by
      unfold total; rw [List.foldl_append, List.foldl_cons, List.foldl_nil]
    rw [e]
    unfold fsum at *
    rw [List.map_append, List.foldl_append, List.map_singleton, List.foldl_cons, List.foldl_nil, ← ih,
      meanAt_single hF hp hn hr hn0 hr0]
    cases ho : frameScore s d (g f) n range x with
    | some v => rfl
    | none =>
      obtain ⟨u, hu, hu0, huk, hur⟩ := h1
      rw [hu]
      simp only [addScore, Option.getD, Fmt.add, add_zero, Bool.and_self]
      rw [deliver_nn _ hu0, hur]
      rw [hur]
      refine lt_of_le_of_lt huk (lt_of_le_of_lt ?_ (pow2_lt hp.p_lt))
      rw [pow2_natCast]
      exact_mod_cast (show fs.length ≤ 2 ^ s.cfg.inter.p by omega)

/-- The mean is off the exact mean of the single-frame means by at most `(k+1) * 2^-p`. -/
theorem meanAt_err {s : Sys} (hF : s.cfg.inter.WF) (hp : Precise s.cfg) {d : Detect} {g : List Fl → ℕ → ℕ → Fl}
    {n range x : ℕ} (hn : n ≤ 2 ^ s.cfg.inter.p) (hr : range ≤ 2 ^ s.cfg.inter.p) (hn0 : 0 < n) (hr0 : 0 < range)
    {fs : List (List Fl)} (hk : fs.length ≤ 2 ^ s.cfg.inter.p) (hk0 : fs ≠ []) :
    |val (meanAt s d g n range fs x) -
        (fs.map (fun f => val (meanAt s d g n range [f] x))).sum / fs.length| ≤
          (fs.length + 1) * pow2 (-s.cfg.inter.p) := by
  obtain ⟨⟨v, e, h0, h1, _⟩, h2⟩ := total_rep hF hp (d := d) (g := g) (x := x) hn hr hn0 hr0 (fs := fs) hk
  have hpos : 0 < fs.length := List.length_pos_iff.mpr hk0
  have hpos' : (0 : ℚ) < fs.length := by exact_mod_cast hpos
  obtain ⟨m1, m2, m3⟩ := mean_unit hF hp hpos hk h0 h1
  have hm : val (meanAt s d g n range fs x) = s.cfg.inter.rnd (v / fs.length) := by
    unfold meanAt; rw [e, m1]; rfl
  have hs : (fs.map (fun f => val (meanAt s d g n range [f] x))).sum =
      (fs.map (fun f => val ((frameScore s d (g f) n range x).getD (.fin false 0)))).sum := by
    congr 1
    refine List.map_congr_left (fun f _ => ?_)
    rw [meanAt_single hF hp hn hr hn0 hr0]
  rw [hm, hs]
  rw [e, show val (.fin false v) = v from rfl] at h2
  set S := (fs.map (fun f => val ((frameScore s d (g f) n range x).getD (.fin false 0)))).sum
  have h3 := s.cfg.inter.rnd_err hF (K := 1) le_rfl m2 (by simpa using m3)
  have h4 : s.cfg.inter.rnd (v / fs.length) - S / fs.length =
      (s.cfg.inter.rnd (v / fs.length) - v / fs.length) + (v - S) / fs.length := by ring
  rw [h4]
  refine le_trans (abs_add_le _ _) ?_
  have h5 : |(v - S) / (fs.length : ℚ)| ≤ fs.length * pow2 (-s.cfg.inter.p) := by
    rw [abs_div, abs_of_pos hpos', div_le_iff₀ hpos']
    linarith
  push_cast at h3
  linarith

end Verif
