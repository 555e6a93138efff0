import Verif.Proofs.JpegPlay
import Verif.Proofs.ScoreLemmas
import Verif.Proofs.Rounding

/-! The PNG reader: open, close, rows and conversion. -/

namespace Verif
open Spec

variable {U F : Prop} {L S : List ℕ} {lib : Png} {fs : Fs} {s : Sys}

/-! ## The transformations -/

/-- Samples per pixel of what libpng hands out. -/
def pngWays (color : ℕ) : ℕ := if color &&& maskColor ≠ 0 then 3 else 1

theorem png_transformed {i : PngInfo} (h : i.Legal) :
    pngTransformed i (pngRequests i) = (if i.color ∈ [2, 3, 6] then 2 else 0, 8) := by
  obtain ⟨w, h', d, c, t, il⟩ := i
  obtain ⟨h1, h2⟩ := h
  simp only [List.mem_cons, List.not_mem_nil, or_false] at h1 h2
  rcases h1 with ⟨rfl, h1⟩ | ⟨rfl, h1⟩ | ⟨rfl, h1⟩ | ⟨rfl, h1⟩ | ⟨rfl, h1⟩
  · rcases h1 with rfl | rfl | rfl | rfl | rfl <;> cases t <;> simp_all [pngTransformed, pngRequests, typePalette, maskAlpha]
  · rcases h1 with rfl | rfl <;> cases t <;> simp_all [pngTransformed, pngRequests, typePalette, maskAlpha]
  · rcases h1 with rfl | rfl | rfl | rfl <;> cases t <;> simp_all [pngTransformed, pngRequests, typePalette, maskAlpha]
  · rcases h1 with rfl | rfl <;> cases t <;> simp_all [pngTransformed, pngRequests, typePalette, maskAlpha]
  · rcases h1 with rfl | rfl <;> cases t <;> simp_all [pngTransformed, pngRequests, typePalette, maskAlpha]

theorem pngRowBytes_eq {c w : ℕ} (h : c = 0 ∨ c = 2) : pngRowBytes c 8 w = w * pngWays c := by
  rcases h with rfl | rfl
  · simp [pngRowBytes, pngChannels, pngWays, typePalette, maskColor, maskAlpha]
  · simp [pngRowBytes, pngChannels, pngWays, typePalette, maskColor, maskAlpha]

theorem pngWays_cases {c : ℕ} (h : c = 0 ∨ c = 2) : (c = 0 ∧ pngWays c = 1) ∨ (c = 2 ∧ pngWays c = 3) := by
  rcases h with rfl | rfl
  · left; exact ⟨rfl, rfl⟩
  · right; exact ⟨rfl, rfl⟩

/-! ## Arithmetic of samples -/

theorem small_deliver {v : ℚ} {n : ℕ} (h0 : 0 ≤ v) (hn : n ≤ 2 ^ 24) (h : v ≤ n) :
    binary32.deliver false v = .fin false (binary32.rnd v) ∧ 0 ≤ binary32.rnd v ∧ binary32.rnd v ≤ n := by
  have h1 := Fmt.rnd_le_natCast binary32 binary32_wf hn h
  refine ⟨deliver_nn _ h0 (lt_of_le_of_lt h1 ?_), Fmt.rnd_nonneg _ h0, h1⟩
  rw [show binary32.emax = ((128 : ℕ) : ℤ) from rfl, pow2_natCast]
  have : (n : ℚ) ≤ 2 ^ 24 := by exact_mod_cast hn
  linarith [show (2 : ℚ) ^ 24 < 2 ^ 128 by norm_num]

theorem normal_unit (b : UInt8) : 0 ≤ binary32.rnd ((b.toNat : ℚ) / (255 : ℕ)) ∧ binary32.rnd ((b.toNat : ℚ) / (255 : ℕ)) ≤ 1 := by
  have hb := b.toNat_lt
  have h1 : (b.toNat : ℚ) ≤ 255 := by exact_mod_cast (by omega : b.toNat ≤ 255)
  refine rnd_unit binary32_wf (by positivity) ?_
  rw [div_le_one (by norm_num)]
  exact_mod_cast h1

theorem zero_add_sample (b : UInt8) : binary32.add (binary32.ofNat 0) (byteSample b) = normal 255 b.toNat := by
  rw [byteSample_eq, ofNat_eq (by norm_num)]
  obtain ⟨h0, h1⟩ := normal_unit b
  simp only [normal, Fmt.add, Bool.and_false, Nat.cast_zero, zero_add]
  rw [deliver_unit binary32_wf h0 h1, binary32.rnd_idem binary32_wf.p_pos]

theorem sample_div_one (b : UInt8) : binary32.div (normal 255 b.toNat) (binary32.ofNat 1) = normal 255 b.toNat := by
  rw [ofNat_eq (by norm_num)]
  obtain ⟨h0, h1⟩ := normal_unit b
  simp only [normal, Fmt.div, Nat.cast_one, one_ne_zero, if_false, Bool.xor_false, div_one]
  rw [deliver_unit binary32_wf h0 h1, binary32.rnd_idem binary32_wf.p_pos]

/-- The computed mean is close to the mean. -/
theorem colour_near (r g b : UInt8) : ∃ q : ℚ, (Dot.colour r g b).sample = .fin false q ∧ 0 ≤ q ∧ q ≤ 1 ∧
    |q - ((r.toNat + g.toNat + b.toNat : ℕ) : ℚ) / 765| ≤ 1 / 2 ^ 21 := by
  have key : ∀ c : UInt8, ∃ v : ℚ, normal 255 c.toNat = .fin false v ∧ 0 ≤ v ∧ v ≤ 1 ∧ |v - (c.toNat : ℚ) / 255| ≤ 1 / 2 ^ 23 := by
    intro c
    obtain ⟨h0, h1⟩ := normal_unit c
    refine ⟨_, rfl, h0, h1, ?_⟩
    have he := binary32.rnd_error ((c.toNat : ℚ) / (255 : ℕ))
    have hc := c.toNat_lt
    have h2 : (c.toNat : ℚ) ≤ 255 := by exact_mod_cast (by omega : c.toNat ≤ 255)
    have h3 : |(c.toNat : ℚ) / (255 : ℕ)| ≤ 1 := by
      rw [abs_of_nonneg (by positivity), div_le_one (by norm_num)]; exact_mod_cast h2
    have e1 : pow2 (-(binary32.p : ℤ)) = 1 / 2 ^ 24 := by rw [show (-(binary32.p : ℤ)) = -24 from rfl, pow2_eq]; norm_num
    have e2 : pow2 (binary32.qmin - 1) ≤ 1 / 2 ^ 30 := by
      rw [show binary32.qmin - 1 = -150 from rfl, pow2_eq]; norm_num
    rw [e1] at he
    push_cast at he ⊢
    push_cast at h3
    linarith [show (1 : ℚ) / 2 ^ 24 + 1 / 2 ^ 30 ≤ 1 / 2 ^ 23 by norm_num]
  have err : ∀ {v : ℚ}, 0 ≤ v → v ≤ 3 → |binary32.rnd v - v| ≤ v / 2 ^ 24 + 1 / 2 ^ 30 := by
    intro v h0 h1
    have he := binary32.rnd_error v
    have e1 : pow2 (-(binary32.p : ℤ)) = 1 / 2 ^ 24 := by rw [show (-(binary32.p : ℤ)) = -24 from rfl, pow2_eq]; norm_num
    have e2 : pow2 (binary32.qmin - 1) ≤ 1 / 2 ^ 30 := by
      rw [show binary32.qmin - 1 = -150 from rfl, pow2_eq]; norm_num
    rw [e1, abs_of_nonneg h0] at he
    linarith
  obtain ⟨x, hx, x0, x1, xe⟩ := key r
  obtain ⟨y, hy, y0, y1, ye⟩ := key g
  obtain ⟨z, hz, z0, z1, ze⟩ := key b
  obtain ⟨d1, s0, s1⟩ := small_deliver (v := x + y) (n := 2) (by linarith) (by norm_num) (by push_cast; linarith)
  push_cast at s1
  obtain ⟨d2, t0, t1⟩ := small_deliver (v := binary32.rnd (x + y) + z) (n := 3) (by linarith) (by norm_num) (by push_cast; linarith)
  push_cast at t1
  obtain ⟨d3, u0, u1⟩ := small_deliver (v := binary32.rnd (binary32.rnd (x + y) + z) / 3) (n := 1) (by positivity) (by norm_num) (by push_cast; linarith)
  push_cast at u1
  refine ⟨_, ?_, u0, u1, ?_⟩
  · simp only [Dot.sample, hx, hy, hz, Fmt.add, Bool.and_false, d1, d2]
    rw [ofNat_eq (by norm_num)]
    simp only [Fmt.div, Bool.xor_false]
    rw [if_neg (by norm_num)]
    push_cast
    exact d3
  · have e1 := err (v := x + y) (by linarith) (by linarith)
    have e2 := err (v := binary32.rnd (x + y) + z) (by linarith) (by linarith)
    have e3 := err (v := binary32.rnd (binary32.rnd (x + y) + z) / 3) (by positivity) (by linarith)
    generalize binary32.rnd (binary32.rnd (binary32.rnd (x + y) + z) / 3) = q3 at *
    generalize binary32.rnd (binary32.rnd (x + y) + z) = q2 at *
    generalize binary32.rnd (x + y) = q1 at *
    push_cast
    obtain ⟨a1, a2⟩ := abs_le.mp e1
    obtain ⟨a3, a4⟩ := abs_le.mp e2
    obtain ⟨a5, a6⟩ := abs_le.mp e3
    obtain ⟨a7, a8⟩ := abs_le.mp xe
    obtain ⟨a9, b1⟩ := abs_le.mp ye
    obtain ⟨b2, b3⟩ := abs_le.mp ze
    clear e1 e2 e3 xe ye ze key err hx hy hz d1 d2 d3
    generalize (r.toNat : ℚ) = R at *
    generalize (g.toNat : ℚ) = G at *
    generalize (b.toNat : ℚ) = B at *
    norm_num at a1 a2 a3 a4 a5 a6 a7 a8 a9 b1 b2 b3 ⊢
    rw [abs_le]
    constructor <;> linarith

/-! ## Closing and opening -/

theorem pngClose_act {x : PngCtx} {L' S' : List ℕ} (hx : x.png = none → x.info = none)
    (hL : L.Perm (x.block :: (x.png.toList ++ x.info.toList) ++ L')) (hS : S.Perm (x.f.owned ++ S')) :
    Act U F L S (pngClose (some x)) (fun _ l s => l = L' ∧ s = S') := by
  unfold pngClose
  refine Act.skip (Act.touch (hL.mem_iff.mpr (by simp))) ?_
  cases hp : x.png with
  | none =>
    rw [hp, hx hp] at hL
    simp only [Option.isSome_none, Bool.false_eq_true, if_false]
    refine Act.bind (Act.closeFile hS) ?_
    rintro _ _ _ ⟨rfl, rfl⟩
    exact Act.free (by simpa using hL)
  | some p =>
    rw [hp, Option.toList_some] at hL
    simp only [Option.isSome_some, if_true]
    refine Act.bind (Act.free (R := x.info.toList ++ (x.block :: L')) (hL.trans ?_)) ?_
    · perm_count
    rintro _ _ _ ⟨rfl, rfl⟩
    refine Act.bind (Act.freeOpt (R := x.block :: L') (List.Perm.refl _)) ?_
    rintro _ _ _ ⟨rfl, rfl⟩
    refine Act.bind (Act.closeFile hS) ?_
    rintro _ _ _ ⟨rfl, rfl⟩
    exact Act.free (List.Perm.refl _)

theorem pngOpen_act {name : List UInt8} :
    Act False F L S (pngOpen fs lib name) (fun a L' S' =>
      (a.2.2.2 = 0 ∧ (∃ x d k i, a.1 = some x ∧ fs.Holds name (d, k) ∧ lib.startup d = some (i, x.state) ∧ a.2.1 = i.width ∧ a.2.2.1 = i.height ∧
        x.width = i.width ∧ (x.color, x.depth) = pngTransformed i (pngRequests i) ∧ x.interlaced = i.interlaced ∧ x.numRows = pngNumRows i ∧
        x.pass = 0 ∧ x.row = 0 ∧ x.eof = false ∧ x.png.isSome ∧ L' = (Ctx.png x).blocks ++ L ∧ S' = (Ctx.png x).files ++ S)) ∨
      (a.2.2.2 ≠ 0 ∧ a.1 = none ∧ L' = L ∧ S' = S ∧
        ((a.2.2.2 = RDENOMEM ∧ F) ∨ (∃ e : ℕ, a.2.2.2 = -(e + 1 : ℤ) ∧ name ≠ cs "-" ∧ fs.fopen name = .inl e) ∨
         (a.2.2.2 = RDEINVAL ∧ ∃ d k, fs.Holds name (d, k) ∧ lib.startup d = none)))) := by
  unfold pngOpen
  refine Act.bind Act.malloc ?_
  rintro r L1 S1 ⟨hS1, ⟨rfl, rfl, hF⟩ | ⟨b, rfl, rfl⟩⟩ <;> subst S1
  · exact Act.pure (Or.inr ⟨by decide, rfl, rfl, rfl, Or.inl ⟨rfl, hF⟩⟩)
  refine Act.bind Act.openFile ?_
  rintro r L1 S2 ⟨rfl, ⟨e, rfl, rfl, hn, hfo⟩ | ⟨f, d, k, rfl, hh, hst, rfl⟩⟩
  · refine Act.bind (Act.free (List.Perm.refl _)) ?_
    rintro _ _ _ ⟨rfl, rfl⟩
    exact Act.pure (Or.inr ⟨neg_ne_ok e, rfl, rfl, rfl, Or.inr (Or.inl ⟨e, rfl, hn, hfo⟩)⟩)
  · simp only [hst, Stream.fread, Stream.advance]
    by_cases hsig : List.take 8 d = pngSignature
    · have hlen : min 8 d.length = 8 := by
        have := congrArg List.length hsig
        simpa [pngSignature] using this
      have hstart : lib.startup d = match lib.info (d.drop 8), lib.update with
          | .ret r, .ret () => some r
          | _, _ => none := by
        unfold Png.startup
        exact if_pos hsig
      rw [if_neg (by simpa using hsig), hlen]
      refine Act.bind Act.malloc ?_
      rintro r L1 S1 ⟨hS1, ⟨rfl, rfl, hF⟩ | ⟨png, rfl, rfl⟩⟩ <;> subst S1
      · simp only
        refine Act.bind (pngClose_act (L' := L) (S' := S) (fun _ => rfl) (by simp) (List.Perm.refl _)) ?_
        rintro _ _ _ ⟨rfl, rfl⟩
        exact Act.pure (Or.inr ⟨by decide, rfl, rfl, rfl, Or.inl ⟨rfl, hF⟩⟩)
      simp only
      refine Act.bind Act.malloc ?_
      rintro r L1 S1 ⟨hS1, ⟨rfl, rfl, hF⟩ | ⟨info, rfl, rfl⟩⟩ <;> subst S1
      · simp only
        refine Act.bind (pngClose_act (L' := L) (S' := S) (by simp) (by simp only [Option.toList_some, Option.toList_none]; perm_count) (List.Perm.refl _)) ?_
        rintro _ _ _ ⟨rfl, rfl⟩
        exact Act.pure (Or.inr ⟨by decide, rfl, rfl, rfl, Or.inl ⟨rfl, hF⟩⟩)
      simp only
      cases hi : lib.info (d.drop 8) with
      | exit =>
        simp only
        refine Act.bind (pngClose_act (L' := L) (S' := S) (by simp) (by simp only [Option.toList_some]; perm_count) (List.Perm.refl _)) ?_
        rintro _ _ _ ⟨rfl, rfl⟩
        exact Act.pure (Or.inr ⟨by decide, rfl, rfl, rfl, Or.inr (Or.inr ⟨rfl, d, k, hh, by rw [hstart, hi]⟩)⟩)
      | ret r =>
        obtain ⟨i, st⟩ := r
        cases hu : lib.update with
        | exit =>
          simp only
          refine Act.bind (pngClose_act (L' := L) (S' := S) (by simp) (by simp only [Option.toList_some]; perm_count) (List.Perm.refl _)) ?_
          rintro _ _ _ ⟨rfl, rfl⟩
          exact Act.pure (Or.inr ⟨show RDEINVAL ≠ 0 by decide, rfl, rfl, rfl, Or.inr (Or.inr ⟨rfl, d, k, hh, by rw [hstart, hi, hu]⟩)⟩)
        | ret u =>
          simp only
          refine Act.of_perm (Act.pure (Or.inl ⟨rfl, _, d, k, i, rfl, hh, by rw [hstart, hi, hu], rfl, rfl, rfl, rfl, rfl, rfl, rfl, rfl, rfl, rfl, rfl, rfl⟩)) ?_ (List.Perm.refl _)
          simp only [Ctx.blocks, Option.toList_some]
          perm_count
    · rw [if_pos (by simpa using hsig)]
      refine Act.bind (pngClose_act (L' := L) (S' := S) (fun _ => rfl) (by simp) (List.Perm.refl _)) ?_
      rintro _ _ _ ⟨rfl, rfl⟩
      exact Act.pure (Or.inr ⟨by decide, rfl, rfl, rfl, Or.inr (Or.inr ⟨rfl, d, k, hh, by unfold Png.startup; exact if_neg hsig⟩)⟩)

end Verif
