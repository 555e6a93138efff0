import Verif.Proofs.PgmFormat

/-! The Y4M reader on YUV4MPEG2 streams. -/

namespace Verif

open Spec

/-! ## The first line -/

/-- What a parameter does. -/
def applyParam (P : Y4mParams) : Param → Y4mParams
  | .width n _ => { P with width := n }
  | .height n _ => { P with height := n }
  | .layout name => { P with csp := store P.csp (cs name ++ [0]) }
  | .other _ _ => P

/-- What follows a parameter. -/
def Sep (r : List UInt8) : Prop := ∃ l, r = ch ' ' :: l ∨ r = ch '\n' :: l

theorem Sep.digit {r : List UInt8} (h : Sep r) : Stops isdigit r := by
  obtain ⟨l, rfl | rfl⟩ := h <;> exact stops_cons.mpr (by decide)

theorem Sep.solid {r : List UInt8} (h : Sep r) : Stops (fun b => !isspace b) r := by
  obtain ⟨l, rfl | rfl⟩ := h <;> exact stops_cons.mpr (by decide)

theorem Spec.Solid.isspace {a : List UInt8} (h : Solid a) : ∀ b ∈ a, isspace b = false := by
  intro b hb
  rw [Bool.eq_false_iff, ne_eq, isspace_iff]
  have := h b hb
  omega

theorem scanWord_eq {a r : List UInt8} {p : ℕ} {k : Kind} {o : Option ℕ} (ha : Solid a) (h0 : a ≠ []) (hr : Sep r)
    (ho : ∀ n, o = some n → a.length ≤ n) : (⟨a ++ r, p, k⟩ : Stream).scanWord o = (.ok a, ⟨r, p + a.length, k⟩) := by
  unfold Stream.scanWord
  cases a with
  | nil => exact absurd rfl h0
  | cons b l =>
    rw [skipSpace_none (by rw [List.cons_append]; exact stops_cons.mpr (ha.isspace b (by simp)))]
    simp only [List.cons_append]
    rw [← List.cons_append, takeWhile_stops (fun x hx => by simp [ha.isspace x hx]) hr.solid]
    cases o with
    | none => simp only; rw [advance_append]
    | some n => simp only; rw [List.take_of_length_le (ho n rfl), advance_append]

theorem layout_word {name : String} {x : Sampling × ℕ} (h : (name, x) ∈ layouts) :
    Solid (cs name) ∧ cs name ≠ [] ∧ (cs name).length ≤ 8 := by
  have key : ∀ e ∈ layouts, (∀ b ∈ cs e.1, ¬(b.toNat = 32 ∨ 9 ≤ b.toNat ∧ b.toNat ≤ 13)) ∧ cs e.1 ≠ [] ∧ (cs e.1).length ≤ 8 := by
    decide +kernel
  exact key _ h

theorem y4mParams_one {c : Cfg} {P : Y4mParams} {q : Param} {r : List UInt8} {p k n : _} (hq : q.Ok) (hr : Sep r)
    (hw : ∀ v, q.width? = some v → v ≤ c.sizeMax) (hh : ∀ v, q.height? = some v → v ≤ c.sizeMax) :
    y4mParams c (n + 1) P ⟨q.bytes ++ r, p, k⟩ = y4mParams c n (applyParam P q) ⟨r, p + q.bytes.length, k⟩ := by
  cases q with
  | width v t =>
    have hv := hw v rfl
    have := scanUnsigned_eq (a := []) (p := p + 1) (k := k) (wide := true) (m := c.sizeMax) (by simp [Blank]) (show Numeral v t from hq) hv hr.digit
    rw [List.nil_append] at this
    conv_lhs => unfold y4mParams
    simp only [Param.bytes, List.cons_append, Stream.fgetc, Stream.advance, List.drop_succ_cons, List.drop_zero]
    rw [if_neg (by decide), if_pos True.intro, this]
    simp [applyParam, add_assoc, add_comm 1]
  | height v t =>
    have hv := hh v rfl
    have := scanUnsigned_eq (a := []) (p := p + 1) (k := k) (wide := true) (m := c.sizeMax) (by simp [Blank]) (show Numeral v t from hq) hv hr.digit
    rw [List.nil_append] at this
    conv_lhs => unfold y4mParams
    simp only [Param.bytes, List.cons_append, Stream.fgetc, Stream.advance, List.drop_succ_cons, List.drop_zero]
    rw [if_neg (by decide), if_neg (by decide), if_pos True.intro, this]
    simp [applyParam, add_assoc, add_comm 1]
  | layout name =>
    obtain ⟨x, hx⟩ := hq
    obtain ⟨h1, h2, h3⟩ := layout_word hx
    have := scanWord_eq (p := p + 1) (k := k) (o := some 9) h1 h2 hr (fun n hn => by cases hn; omega)
    conv_lhs => unfold y4mParams
    simp only [Param.bytes, List.cons_append, Stream.fgetc, Stream.advance, List.drop_succ_cons, List.drop_zero]
    rw [if_neg (by decide), if_neg (by decide), if_neg (by decide), if_pos True.intro, this]
    simp [applyParam, add_assoc, add_comm 1]
  | other tag t =>
    obtain ⟨h1, h2, h3, h4, h5⟩ := hq
    have ht := h4.isspace tag (by simp)
    have hs : Solid t := fun b hb => h4 b (by simp [hb])
    have := scanWord_eq (p := p + 1) (k := k) (o := none) hs h5 hr (fun n hn => by cases hn)
    have hn : tag ≠ ch '\n' := by rintro rfl; revert ht; decide
    have hb : tag ≠ ch ' ' := by rintro rfl; revert ht; decide
    conv_lhs => unfold y4mParams
    simp only [Param.bytes, List.cons_append, Stream.fgetc, Stream.advance, List.drop_succ_cons, List.drop_zero]
    rw [if_neg hn, if_neg h1, if_neg h2, if_neg h3, if_neg hb, this]
    simp [applyParam, add_assoc, add_comm 1]

theorem y4mParams_space {c : Cfg} {P : Y4mParams} {r : List UInt8} {p k n : _} :
    y4mParams c (n + 1) P ⟨ch ' ' :: r, p, k⟩ = y4mParams c n P ⟨r, p + 1, k⟩ := by
  conv_lhs => unfold y4mParams
  simp only [Stream.fgetc, Stream.advance, List.drop_succ_cons, List.drop_zero]
  rw [if_neg (by decide), if_neg (by decide), if_neg (by decide), if_neg (by decide), if_pos True.intro]

/-- Parameters, each after a blank. -/
def spaced (ps : List Param) : List UInt8 := (ps.map (fun p => ch ' ' :: p.bytes)).flatten

theorem sep_spaced (ps : List Param) (r : List UInt8) : Sep (spaced ps ++ (ch '\n' :: r)) := by
  cases ps with
  | nil => exact ⟨r, Or.inr rfl⟩
  | cons q ps => exact ⟨q.bytes ++ (spaced ps ++ (ch '\n' :: r)), Or.inl (by simp [spaced])⟩

theorem y4mParams_eq {c : Cfg} {ps : List Param} {P : Y4mParams} {r : List UInt8} {p k n : _} (hn : 2 * ps.length < n) (hq : ∀ q ∈ ps, q.Ok)
    (hw : ∀ q ∈ ps, ∀ v, q.width? = some v → v ≤ c.sizeMax) (hh : ∀ q ∈ ps, ∀ v, q.height? = some v → v ≤ c.sizeMax) :
    y4mParams c n P ⟨spaced ps ++ (ch '\n' :: r), p, k⟩ = some (some (ps.foldl applyParam P), ⟨r, p + (spaced ps).length + 1, k⟩) := by
  induction ps generalizing P p n with
  | nil =>
    obtain ⟨n, rfl⟩ : ∃ m, n = m + 1 := ⟨n - 1, by omega⟩
    unfold y4mParams
    simp [spaced, Stream.fgetc, Stream.advance]
  | cons q ps ih =>
    obtain ⟨n, rfl⟩ : ∃ m, n = m + 1 + 1 := ⟨n - 2, by simp at hn; omega⟩
    have e : spaced (q :: ps) ++ (ch '\n' :: r) = ch ' ' :: (q.bytes ++ (spaced ps ++ (ch '\n' :: r))) := by simp [spaced]
    rw [e, y4mParams_space, y4mParams_one (hq q (by simp)) (sep_spaced ps r) (hw q (by simp)) (hh q (by simp)), ih (by simp at hn; omega)
      (fun x hx => hq x (by simp [hx])) (fun x hx => hw x (by simp [hx])) (fun x hx => hh x (by simp [hx]))]
    simp [spaced]
    omega

theorem fold_width {ps : List Param} {P : Y4mParams} : (ps.foldl applyParam P).width = (ps.filterMap Param.width?).getLastD P.width := by
  induction ps generalizing P with
  | nil => rfl
  | cons q ps ih => cases q <;> simp only [List.foldl_cons, ih, applyParam, Param.width?, List.filterMap_cons, List.getLastD_cons]

theorem fold_height {ps : List Param} {P : Y4mParams} : (ps.foldl applyParam P).height = (ps.filterMap Param.height?).getLastD P.height := by
  induction ps generalizing P with
  | nil => rfl
  | cons q ps ih => cases q <;> simp only [List.foldl_cons, ih, applyParam, Param.height?, List.filterMap_cons, List.getLastD_cons]

theorem fold_csp {ps : List Param} {P : Y4mParams} :
    (ps.foldl applyParam P).csp = (ps.filterMap Param.layout?).foldl (fun c name => store c (cs name ++ [0])) P.csp := by
  induction ps generalizing P with
  | nil => rfl
  | cons q ps ih => cases q <;> simp [ih, applyParam, Param.layout?, List.filterMap_cons]

/-- The layout name in its array. -/
def y4mCsp (name : String) : List UInt8 := store y4mCspInit (cs name ++ [0])

theorem y4mHeader_eq {c : Cfg} {W H : ℕ} {name : String} {head rest : List UInt8} {k : Kind} (h : Y4mHead W H name head) (hW : W ≤ c.sizeMax)
    (hH : H ≤ c.sizeMax) : y4mHeader c ⟨head ++ rest, 0, k⟩ = some (some ⟨W, H, y4mCsp name⟩, ⟨rest, head.length, k⟩) := by
  cases h with
  | @mk ps hq hw hh hl =>
    cases ps with
    | nil => cases hw
    | cons q ps =>
      have e : cs "YUV4MPEG2" ++ (((q :: ps).map (fun p => ch ' ' :: p.bytes)).flatten ++ [ch '\n']) ++ rest =
          cs "YUV4MPEG2 " ++ (q.bytes ++ (spaced ps ++ (ch '\n' :: rest))) := by
        have : cs "YUV4MPEG2 " = cs "YUV4MPEG2" ++ [ch ' '] := by decide
        rw [this]; simp [spaced]
      have e2 : (cs "YUV4MPEG2" ++ (((q :: ps).map (fun p => ch ' ' :: p.bytes)).flatten ++ [ch '\n'])).length =
          10 + q.bytes.length + (spaced ps).length + 1 := by
        have : (cs "YUV4MPEG2").length = 9 := by decide
        simp [spaced, this]; omega
      rw [e, e2]
      unfold y4mHeader
      have h10 : (cs "YUV4MPEG2 ").length = 10 := by decide
      have er : ∀ l : List UInt8, (⟨cs "YUV4MPEG2 " ++ l, 0, k⟩ : Stream).fread 10 = (cs "YUV4MPEG2 ", ⟨l, 10, k⟩) := by
        intro l
        rw [fread_eq]
        simp [Stream.advance, h10]
      rw [er]
      simp only
      rw [if_neg (by simp [h10])]
      have bw : ∀ x ∈ q :: ps, ∀ v, x.width? = some v → v ≤ c.sizeMax := by
        intro x hx v hv
        have : v ∈ (q :: ps).filterMap Param.width? := List.mem_filterMap.mpr ⟨x, hx, hv⟩
        rw [hw] at this
        rw [List.mem_singleton.mp this]; exact hW
      have bh : ∀ x ∈ q :: ps, ∀ v, x.height? = some v → v ≤ c.sizeMax := by
        intro x hx v hv
        have : v ∈ (q :: ps).filterMap Param.height? := List.mem_filterMap.mpr ⟨x, hx, hv⟩
        rw [hh] at this
        rw [List.mem_singleton.mp this]; exact hH
      have hlen : 2 * ps.length ≤ (spaced ps).length := by
        clear * - hq
        replace hq : ∀ x ∈ ps, x.Ok := fun x hx => hq x (by simp [hx])
        induction ps with
        | nil => simp [spaced]
        | cons x ps ih =>
          have := ih (fun y hy => hq y (by simp [hy]))
          have hx : 1 ≤ x.bytes.length := by cases x <;> simp [Param.bytes]
          simp only [spaced, List.map_cons, List.flatten_cons, List.length_append, List.length_cons] at this ⊢
          omega
      rw [y4mParams_one (hq q (by simp)) (sep_spaced ps rest) (bw q (by simp)) (bh q (by simp)), y4mParams_eq (by simp; omega)
        (fun x hx => hq x (by simp [hx])) (fun x hx => bw x (by simp [hx])) (fun x hx => bh x (by simp [hx]))]
      have eP : ps.foldl applyParam (applyParam ⟨0, 0, y4mCspInit⟩ q) = ⟨W, H, y4mCsp name⟩ := by
        have h1 := fold_width (ps := q :: ps) (P := ⟨0, 0, y4mCspInit⟩)
        have h2 := fold_height (ps := q :: ps) (P := ⟨0, 0, y4mCspInit⟩)
        have h3 := fold_csp (ps := q :: ps) (P := ⟨0, 0, y4mCspInit⟩)
        rw [hw] at h1
        rw [hh] at h2
        have h4 : ((q :: ps).foldl applyParam ⟨0, 0, y4mCspInit⟩).csp = y4mCsp name := by
          rw [h3]
          rcases hl with hl | ⟨hl, rfl⟩
          · rw [hl]; rfl
          · rw [hl]; decide
        simp only [List.foldl_cons] at h1 h2 h4
        revert h1 h2 h4
        generalize List.foldl applyParam (applyParam ⟨0, 0, y4mCspInit⟩ q) ps = Q
        rintro h1 h2 h4
        cases Q
        simp only [List.getLastD_cons, List.getLastD_nil] at h1 h2 h4
        rw [h1, h2, h4]
      rw [eP]

/-! ## Layouts -/

/-- The sampling the reader assumes. -/
def assumed : Sampling → Sampling
  | .s411 => .s420
  | .s444alpha => .s444
  | x => x

/-- The sampling a name stands for. -/
def kind (csp : List UInt8) : Option Sampling :=
  if csp.take 4 = cs "mono" then some .mono
  else if csp.take 3 = cs "420" ∨ csp.take 3 = cs "411" then some .s420
  else if csp.take 3 = cs "422" then some .s422
  else if csp.take 3 = cs "444" then some .s444
  else none

theorem chroma_kind {W H : ℕ} {csp : List UInt8} {x : Sampling} (h : kind csp = some x) : y4mChroma W H csp = some (x.extra W H) := by
  unfold kind at h
  unfold y4mChroma
  split_ifs at h with h1 h2 h3 h4
  · cases h; rw [if_pos h1]; rfl
  · cases h; rw [if_neg h1, if_pos h2]; simp [Sampling.extra, Nat.mul_comm]
  · cases h; rw [if_neg h1, if_neg h2, if_pos h3]; simp [Sampling.extra, Nat.mul_comm]
  · cases h; rw [if_neg h1, if_neg h2, if_neg h3, if_pos h4]; simp [Sampling.extra, Nat.mul_comm]

/-- The depth a name stands for, if its characters are plain. -/
def depthOf (csp : List UInt8) : Option ℕ :=
  match rd csp 3, rd csp 4 with
  | some a, some b =>
    if b.toNat < 128 then
      let d := if isdigit b then y4mDepth csp else 8
      some (if csp.take 4 = cs "mono" then d else if a = ch 'p' then d else 8)
    else none
  | _, _ => none

theorem y4mLayout_eq {c : Cfg} {W H d : ℕ} {csp : List UInt8} {x : Sampling} (hw : 0 < W) (hh : 0 < H) (hs : W * H * 4 ≤ c.sizeMax)
    (hk : kind csp = some x) (hd : depthOf csp = some d) : y4mLayout c W H csp = some (some (x.extra W H, d)) := by
  have h : ∃ u, y4mLayout c W H csp = some (some (u, d)) := by
    unfold depthOf at hd
    split at hd
    · rename_i a b ha hb
      split at hd
      · rename_i hl
        have hc : ctypeOk c b = true := by
          unfold ctypeOk
          have : ¬ (128 ≤ b) := by rw [UInt8.le_iff_toNat_le]; exact not_le.mpr hl
          simp [this]
        have hg : y4mDigits c csp = some (if isdigit b then y4mDepth csp else 8) := by
          unfold y4mDigits; rw [hb]; simp [hc]
        cases hd
        unfold y4mLayout
        rw [hg, ha]
        unfold kind at hk
        by_cases h1 : csp.take 4 = cs "mono"
        · simp only [h1, if_true]; exact ⟨_, rfl⟩
        · simp only [h1, if_false] at hk ⊢
          have key : ∀ o : Option ℕ, o.isSome → ∃ u, (match o with
              | none => (some none : Option (Option (ℕ × ℕ)))
              | some uv => do
                let b ← some a
                if b = ch 'p' then
                  let depth ← some (if isdigit b then y4mDepth csp else 8)
                  return some (uv, depth)
                else return some (uv, 8)) = some (some (u, if a = ch 'p' then (if isdigit a then y4mDepth csp else 8) else 8)) := by
            intro o ho
            obtain ⟨u, rfl⟩ := Option.isSome_iff_exists.mp ho
            refine ⟨u, ?_⟩
            simp only [Option.bind_eq_bind, Option.bind_some]
            split <;> rfl
          split at hk
          · rename_i h2; rw [if_pos h2]; simp only [Option.bind_eq_bind, Option.bind_some]; split <;> exact ⟨_, rfl⟩
          · rename_i h2
            rw [if_neg h2]
            split at hk
            · rename_i h3; rw [if_pos h3]; simp only [Option.bind_eq_bind, Option.bind_some]; split <;> exact ⟨_, rfl⟩
            · rename_i h3
              rw [if_neg h3]
              split at hk
              · rename_i h4; rw [if_pos h4]; simp only [Option.bind_eq_bind, Option.bind_some]; split <;> exact ⟨_, rfl⟩
              · cases hk
      · cases hd
    · cases hd
  obtain ⟨u, hu⟩ := h
  have := y4mLayout_chroma hw hh hs hu
  rw [chroma_kind hk] at this
  cases this
  exact hu

theorem layouts_read : ∀ e ∈ layouts, kind (y4mCsp e.1) = some (assumed e.2.1) ∧ depthOf (y4mCsp e.1) = some e.2.2 ∧ 8 ≤ e.2.2 ∧ e.2.2 ≤ 16 := by
  decide +kernel

/-- Bytes per sample. -/
def wide (depth : ℕ) : ℕ := if depth = 8 then 1 else 2

theorem wide_eq {d : ℕ} (h : 8 ≤ d) (h' : d ≤ 16) : (d + 7) / 8 = wide d := by unfold wide; split <;> omega

theorem y4mSizes_of {c : Cfg} {W H d : ℕ} {csp : List UInt8} {x : Sampling} (hl : y4mLayout c W H csp = some (some (x.extra W H, d))) (h8 : 8 ≤ d)
    (h16 : d ≤ 16) (hW : 0 < W) (hH : 0 < H) (h1 : W * H * 4 ≤ c.pixelMax) (h2 : W * H * 4 ≤ c.sizeMax)
    (h3 : (W * H + x.extra W H) * wide d ≤ c.sizeMax) :
    y4mSizes c ⟨W, H, csp⟩ = some (.inr (W * H * wide d, x.extra W H * wide d, d)) := by
  have hlim : dimsExceedLimit c W H 4 1 = false := (dimsExceedLimit_false (by omega)).mpr ⟨hW, hH, by omega, h1, by omega⟩
  have hb : 0 < wide d := by unfold wide; split <;> omega
  have hle : W * H + x.extra W H ≤ (W * H + x.extra W H) * wide d := Nat.le_mul_of_pos_right _ hb
  unfold y4mSizes
  simp only
  rw [if_neg (by omega), hlim]
  simp only [Bool.false_eq_true, if_false]
  rw [hl]
  simp only [Option.bind_eq_bind, Option.bind_some]
  rw [if_neg (by omega), wide_eq h8 h16, sz_eq (c := c) (n := W * H) (by omega), sz_eq (c := c) (n := W * H + _) (by omega),
    if_neg (by rw [not_lt, Nat.le_div_iff_mul_le hb]; exact h3)]
  rw [Nat.add_mul] at h3
  rw [sz_eq (by omega), sz_eq (by omega)]
  rfl

theorem y4mSizes_eq {c : Cfg} {W H d : ℕ} {name : String} {x : Sampling} (hl : (name, x, d) ∈ layouts) (hW : 0 < W) (hH : 0 < H)
    (h1 : W * H * 4 ≤ c.pixelMax) (h2 : W * H * 4 ≤ c.sizeMax) (h3 : (W * H + (assumed x).extra W H) * wide d ≤ c.sizeMax) :
    y4mSizes c ⟨W, H, y4mCsp name⟩ = some (.inr (W * H * wide d, (assumed x).extra W H * wide d, d)) := by
  obtain ⟨hk, hd, h8, h16⟩ := layouts_read _ hl
  exact y4mSizes_of (y4mLayout_eq hW hH h2 hk hd) h8 h16 hW hH h1 h2 h3

/-! ## Frames -/

theorem y4mFrameHeader_eq {params r : List UInt8} {p : ℕ} {k : Kind} (hp : OneLine params) :
    y4mFrameHeader ⟨cs "FRAME" ++ (params ++ (ch '\n' :: r)), p, k⟩ = (true, RDEOK, ⟨r, p + (5 + params.length + 1), k⟩) := by
  have h5 : (cs "FRAME").length = 5 := by decide
  unfold y4mFrameHeader
  rw [fread_eq]
  have e1 : (cs "FRAME" ++ (params ++ (ch '\n' :: r))).take 5 = cs "FRAME" := by rw [← h5]; simp
  have e2 : (⟨cs "FRAME" ++ (params ++ (ch '\n' :: r)), p, k⟩ : Stream).advance (min 5 (cs "FRAME" ++ (params ++ (ch '\n' :: r))).length) =
      ⟨params ++ (ch '\n' :: r), p + 5, k⟩ := by
    rw [Nat.min_eq_left (by simp [h5]), ← h5, advance_append]
  have e3 : (params ++ (ch '\n' :: r)).takeWhile (fun b => b != ch '\n') = params := by
    refine takeWhile_stops (P := fun b => b != ch '\n') (fun b hb => ?_) (stops_cons.mpr (by simp))
    simp only [bne_iff_ne]
    rintro rfl
    exact hp hb
  simp only [e1, e2, e3, h5]
  simp [Stream.advance]
  omega

theorem y4mFrameHeader_empty {p : ℕ} {k : Kind} (hb : k.broken = false) : y4mFrameHeader ⟨[], p, k⟩ = (false, RDEOK, ⟨[], p, k⟩) := by
  simp [y4mFrameHeader, Stream.fread, Stream.advance, Stream.feof, hb]

/-- Skipping within the data. -/
theorem skipBy_eq {s : Sys} {b : Bool} {a r : List UInt8} {p : ℕ} {k : Kind} (hb : b = true → k.seekable = true ∧ p + a.length ≤ s.cfg.longMax) :
    skipBy s b ⟨a ++ r, p, k⟩ a.length = (RDEOK, ⟨r, p + a.length, k⟩) := by
  unfold skipBy
  cases b with
  | true =>
    obtain ⟨h1, h2⟩ := hb rfl
    rw [if_pos rfl, if_pos ⟨h1, h2⟩, advance_append]
  | false =>
    rw [if_neg (by simp), if_pos (by simp), advance_append]

theorem sampleBytes_length (d v : ℕ) : (sampleBytes d v).length = wide d := by unfold sampleBytes wide; split <;> rfl

theorem luma_length (d : ℕ) (l : List ℕ) : ((l.map (sampleBytes d)).flatten).length = l.length * wide d := by
  induction l with
  | nil => simp
  | cons v l ih => simp [sampleBytes_length, ih]; ring

theorem y4mValue_eq {c : Cfg} {d : ℕ} {l : List ℕ} (hd : 8 ≤ d) (hd' : d ≤ 16) (hl : ∀ v ∈ l, v < 2 ^ d) (hc : d = 8 ∨ c.littleEndian = true)
    {i : ℕ} (hi : i < l.length) : y4mValue c d ((l.map (sampleBytes d)).flatten) i = l[i] := by
  induction l generalizing i with
  | nil => simp at hi
  | cons v l ih =>
    have hv : v < 2 ^ d := hl v (by simp)
    have h16 : (2 : ℕ) ^ d ≤ 65536 := by
      calc (2 : ℕ) ^ d ≤ 2 ^ 16 := Nat.pow_le_pow_right (by omega) hd'
        _ = 65536 := by norm_num
    have ih' := fun {i} (h : i < l.length) => ih (i := i) (fun v hv => hl v (by simp [hv])) h
    unfold y4mValue at ih' ⊢
    by_cases h8 : d = 8
    · subst h8
      rw [if_neg (by omega)]
      cases i with
      | zero =>
        simp [sampleBytes]
        omega
      | succ i =>
        simp only [List.length_cons, Nat.add_lt_add_iff_right] at hi
        have := ih' hi
        rw [if_neg (by omega)] at this
        simpa [sampleBytes] using this
    · rw [if_pos (by omega)]
      have hc' : c.littleEndian = true := by tauto
      cases i with
      | zero =>
        simp [sampleBytes, h8, hc']
        omega
      | succ i =>
        simp only [List.length_cons, Nat.add_lt_add_iff_right] at hi
        have := ih' hi
        rw [if_pos (by omega)] at this
        have e : 2 * (i + 1) = 2 * i + 1 + 1 := by ring
        have e' : 2 * (i + 1) + 1 = 2 * i + 1 + 1 + 1 := by ring
        simp only [e, List.map_cons, List.flatten_cons, sampleBytes, h8, if_false, List.cons_append, List.nil_append,
          List.getD_cons_succ, List.getElem_cons_succ]
        simpa [sampleBytes, h8] using this

theorem y4mPlane_eq {c : Cfg} {d : ℕ} {l : List ℕ} (hd : 8 ≤ d) (hd' : d ≤ 16) (hl : ∀ v ∈ l, v < 2 ^ d) (hc : d = 8 ∨ c.littleEndian = true) :
    y4mPlane c d l.length ((l.map (sampleBytes d)).flatten) = l.map (fun v => normal (2 ^ d - 1) v) := by
  unfold y4mPlane
  apply List.ext_getElem (by simp)
  intro i h1 h2
  have hi : i < l.length := by simpa using h1
  simp only [List.getElem_map, List.getElem_range, y4mPixel]
  rw [y4mValue_eq hd hd' hl hc hi]
  have hv := hl _ (List.getElem_mem hi)
  have h16 : (2 : ℕ) ^ d ≤ 65536 := by
    calc (2 : ℕ) ^ d ≤ 2 ^ 16 := Nat.pow_le_pow_right (by omega) hd'
      _ = 65536 := by norm_num
  have h2 : (2 : ℕ) ^ 8 ≤ 2 ^ d := Nat.pow_le_pow_right (by omega) hd
  exact quotient_eq (by omega) (by omega) (by omega)

/-- A Y4M context at the start of a frame or at the end. -/
def Y4mR (s : Sys) (W H d : ℕ) (x : Sampling) (c : Ctx) (frames : List (List Fl)) (_ops : List IOp) : Prop :=
  ∃ st mode ls, c = .y4m ⟨0, ⟨none, st⟩, none, W * H * wide d, x.extra W H * wide d, d, mode⟩ ∧ Y4mParts W H x d ls st.rest ∧
    frames = ls.map (fun l => l.map (fun v => normal (2 ^ d - 1) v)) ∧
    (mode = true → st.seekable = true ∧ st.pos + st.rest.length ≤ s.cfg.longMax) ∧ st.kind.broken = false

theorem y4mSkips_eq {s : Sys} {W H d : ℕ} {x : Sampling} {mode : Bool} (todo : ℕ) {i : ℕ} {st : Stream} {ls : List (List ℕ)} {calls : List ℕ}
    (hp : Y4mParts W H x d ls st.rest) (hm : mode = true → st.seekable = true ∧ st.pos + st.rest.length ≤ s.cfg.longMax) (hb : st.kind.broken = false) :
    ∃ st', y4mSkips s ⟨0, ⟨none, st⟩, none, W * H * wide d, x.extra W H * wide d, d, mode⟩ true todo i st calls =
      (decide (todo ≤ ls.length), RDEOK, calls ++ (List.range (min todo ls.length)).map (· + (i + 1)), st') ∧ Y4mParts W H x d (ls.drop todo) st'.rest ∧
        (mode = true → st'.seekable = true ∧ st'.pos + st'.rest.length ≤ s.cfg.longMax) ∧ st'.kind.broken = false := by
  have key : ∀ (todo : ℕ) {i : ℕ} {st st0 : Stream} {ls : List (List ℕ)} {calls : List ℕ}
    (_ : Y4mParts W H x d ls st.rest) (_ : mode = true → st.seekable = true ∧ st.pos + st.rest.length ≤ s.cfg.longMax) (_ : st.kind.broken = false),
    ∃ st', y4mSkips s ⟨0, ⟨none, st0⟩, none, W * H * wide d, x.extra W H * wide d, d, mode⟩ true todo i st calls =
      (decide (todo ≤ ls.length), RDEOK, calls ++ (List.range (min todo ls.length)).map (· + (i + 1)), st') ∧ Y4mParts W H x d (ls.drop todo) st'.rest ∧
        (mode = true → st'.seekable = true ∧ st'.pos + st'.rest.length ≤ s.cfg.longMax) ∧ st'.kind.broken = false := by
    intro todo
    induction todo with
    | zero => intro i st st0 ls calls hp hm hb; exact ⟨st, by simp [y4mSkips], hp, hm, hb⟩
    | succ n ih =>
      intro i st st0 ls calls hp hm hb
      obtain ⟨rest, p, k⟩ := st
      simp only at hp hm hb
      cases hp with
      | nil =>
        refine ⟨⟨[], p, k⟩, ?_, by simpa using Y4mParts.nil, hm, hb⟩
        simp [y4mSkips, y4mFrameHeader_empty hb]
      | @cons l ls a b h1 h2 =>
        cases h1 with
        | @mk params extra hpar hlen hv hx =>
          have hy := luma_length d l
          rw [hlen] at hy
          have e : cs "FRAME" ++ (params ++ (ch '\n' :: ((l.map (sampleBytes d)).flatten ++ extra))) ++ b =
              cs "FRAME" ++ (params ++ (ch '\n' :: ((l.map (sampleBytes d)).flatten ++ (extra ++ b)))) := by simp
          have h5 : (cs "FRAME").length = 5 := by decide
          simp only [e, List.length_append, List.length_cons, h5] at hm
          have hx' : extra.length = x.extra W H * wide d := hx
          rw [e]
          obtain ⟨st', h3, h4, h5⟩ := ih (i := i + 1) (st := ⟨b, p + (5 + params.length + 1) + W * H * wide d + x.extra W H * wide d, k⟩) (st0 := st0)
            (calls := calls ++ [i + 1]) h2 (fun h => ⟨(hm h).1, by have := (hm h).2; simp only; omega⟩) hb
          refine ⟨st', ?_, by simpa using h4, h5⟩
          unfold y4mSkips
          rw [y4mFrameHeader_eq hpar]
          simp only [if_true]
          rw [← hy, skipBy_eq (fun h => ⟨(hm h).1, by have := (hm h).2; omega⟩)]
          simp only
          rw [if_pos (show RDEOK = 0 from rfl), ← hx', skipBy_eq (fun h => ⟨(hm h).1, by have := (hm h).2; omega⟩)]
          simp only
          rw [if_pos (show RDEOK = 0 from rfl), hy, hx', h3]
          simp only [List.length_cons, Nat.add_le_add_iff_right, Nat.add_min_add_right, List.range_succ_eq_map, List.map_cons, List.map_map,
            List.append_assoc, List.singleton_append, Nat.zero_add]
          congr 5
          apply List.map_congr_left
          intro j _
          simp; omega
  exact key todo hp hm hb

/-- Reading a frame. -/
theorem y4m_step {s : Sys} {W H d p : ℕ} {x : Sampling} {l : List ℕ} {a b : List UInt8} {k : Kind} {mode : Bool} (h8 : 8 ≤ d) (h16 : d ≤ 16)
    (hc : d = 8 ∨ s.cfg.littleEndian = true) (h1 : Y4mPart W H x d l a) (hm : mode = true → k.seekable = true ∧ p + (a ++ b).length ≤ s.cfg.longMax) :
    Ctx.step s W H (.y4m ⟨0, ⟨none, ⟨a ++ b, p, k⟩⟩, none, W * H * wide d, x.extra W H * wide d, d, mode⟩) =
      some (some (l.map (fun v => normal (2 ^ d - 1) v)), RDEOK,
        .y4m ⟨0, ⟨none, ⟨b, p + a.length, k⟩⟩, none, W * H * wide d, x.extra W H * wide d, d, mode⟩) := by
  cases h1 with
  | @mk params extra hpar hlen hv hx =>
    have hy := luma_length d l
    rw [hlen] at hy
    have e : cs "FRAME" ++ (params ++ (ch '\n' :: ((l.map (sampleBytes d)).flatten ++ extra))) ++ b =
        cs "FRAME" ++ (params ++ (ch '\n' :: ((l.map (sampleBytes d)).flatten ++ (extra ++ b)))) := by simp
    have h5 : (cs "FRAME").length = 5 := by decide
    have hx' : extra.length = x.extra W H * wide d := hx
    have el : p + (cs "FRAME" ++ (params ++ (ch '\n' :: ((l.map (sampleBytes d)).flatten ++ extra)))).length =
        p + (5 + params.length + 1) + W * H * wide d + x.extra W H * wide d := by
      simp only [List.length_append, List.length_cons, h5, hy, hx']; omega
    rw [el]
    simp only [e, List.length_append, List.length_cons, h5] at hm
    have hr : y4mReads s ⟨0, ⟨none, ⟨cs "FRAME" ++ (params ++ (ch '\n' :: ((l.map (sampleBytes d)).flatten ++ (extra ++ b)))), p, k⟩⟩, none,
        W * H * wide d, x.extra W H * wide d, d, mode⟩ (W * H) []
        ⟨cs "FRAME" ++ (params ++ (ch '\n' :: ((l.map (sampleBytes d)).flatten ++ (extra ++ b)))), p, k⟩ =
        (true, RDEOK, fill [] 0 (y4mPlane s.cfg d (W * H) ((l.map (sampleBytes d)).flatten)),
          ⟨b, p + (5 + params.length + 1) + W * H * wide d + x.extra W H * wide d, k⟩) := by
      unfold y4mReads
      rw [y4mFrameHeader_eq hpar]
      simp only [if_true]
      rw [if_pos (by simp [hy]), ← hy, advance_append, ← hx', skipBy_eq (fun h => ⟨(hm h).1, by have := (hm h).2; omega⟩), hy, hx']
      simp only [← hy, List.take_left]
      rfl
    simp only [Ctx.step, e, hr, y4mFrameHeader_eq hpar, if_true]
    rw [← hy, List.take_left, ← hlen, y4mPlane_eq h8 h16 hv hc]

theorem y4m_sim {s : Sys} {W H d : ℕ} {x : Sampling} (h8 : 8 ≤ d) (h16 : d ≤ 16) (hc : d = 8 ∨ s.cfg.littleEndian = true) :
    Sim s W H (Y4mR s W H d x) := by
  constructor
  · rintro _ ops ⟨st, mode, ls, rfl, hp, hl, hm, hk⟩
    obtain rfl : ls = [] := List.map_eq_nil_iff.mp hl.symm
    obtain ⟨rest, p, k⟩ := st
    simp only at hp
    cases hp
    refine ⟨_, ?_, ⟨[], p, k⟩, mode, [], rfl, .nil, rfl, hm, hk⟩
    simp [Ctx.step, y4mReads, y4mFrameHeader_empty hk]
  · rintro _ f fs ops ⟨st, mode, ls, rfl, hp, hl, hm, hk⟩
    obtain ⟨rest, p, k⟩ := st
    simp only at hp hm
    cases hp with
    | nil => cases hl
    | @cons l ls a b h1 h2 =>
      cases hl
      refine ⟨_, y4m_step h8 h16 hc h1 hm, _, _, _, rfl, h2, rfl, fun h => ⟨(hm h).1, ?_⟩, hk⟩
      have := (hm h).2
      simp only [List.length_append] at this ⊢
      omega
  · rintro _ fs n ops ⟨st, mode, ls, rfl, hp, rfl, hm, hk⟩
    obtain ⟨st', h1, h2, h3⟩ := y4mSkips_eq n (i := 0) (calls := []) hp hm hk
    refine ⟨_, ?_, st', mode, ls.drop n, rfl, h2, by simp [List.map_drop], h3⟩
    simp only [Ctx.skip, h1]
    simp

/-- A first line that is understood, and then frames. -/
theorem y4m_plays_of {s : Sys} {io : Io} {name head b : List UInt8} {k : Kind} {W H d p : ℕ} {csp : List UInt8} {x : Sampling}
    {frames : List (List ℕ)} {m : M Opened} (hu : Uses s io name (cs "y4m") m) (ho : io.omitY4m = false) (hh : io.fs.Holds name (head ++ b, k))
    (hp : y4mHeader s.cfg ⟨head ++ b, 0, k⟩ = some (some ⟨W, H, csp⟩, ⟨b, p, k⟩)) (hpl : p = head.length)
    (hz : y4mSizes s.cfg ⟨W, H, csp⟩ = some (.inr (W * H * wide d, x.extra W H * wide d, d))) (h8 : 8 ≤ d) (h16 : d ≤ 16) (hw : Within s.cfg W H)
    (hb : Y4mParts W H x d frames b) (hc : d = 8 ∨ s.cfg.littleEndian = true) (hk : k.seekable = true → (head ++ b).length ≤ s.cfg.longMax)
    (hb' : k.broken = false) : Plays m W H (frames.map (fun l => l.map (fun v => normal (2 ^ d - 1) v))) (fun _ => True) := by
  rw [uses_y4m hu ho]
  have hd := (y4m_determined (s := s) name).1 _ k hh
  unfold y4mOutcome at hd
  rw [hp] at hd
  simp only at hd
  rw [hz] at hd
  simp only at hd
  refine Builtin.plays Builtin.y4m (y4m_sim (d := d) (x := x) h8 h16 hc) hd hw (fun ops _ => ?_)
  refine ⟨_, _, frames, rfl, hb, rfl, fun h => ?_, hb'⟩
  unfold seekMode at h
  simp only [Bool.and_eq_true, decide_eq_true_eq] at h
  refine ⟨h.2.1, ?_⟩
  have := hk h.2.1
  subst hpl
  simpa using this

/-- A Y4M file plays its luma. -/
theorem y4m_plays {s : Sys} {io : Io} {name file : List UInt8} {k : Kind} {W H d : ℕ} {x : Sampling} {frames : List (List ℕ)} {m : M Opened}
    (hu : Uses s io name (cs "y4m") m) (ho : io.omitY4m = false) (hh : io.fs.Holds name (file, k)) (hf : Y4mFile W H x d frames file)
    (hW : 0 < W) (hH : 0 < H) (h1 : W * H * 4 ≤ s.cfg.pixelMax) (h2 : W * H * 4 ≤ s.cfg.sizeMax)
    (h3 : (W * H + x.extra W H) * wide d ≤ s.cfg.sizeMax) (hx : (assumed x).extra W H = x.extra W H)
    (hc : d = 8 ∨ s.cfg.littleEndian = true) (hk : k.seekable = true → file.length ≤ s.cfg.longMax) (hb' : k.broken = false) :
    Plays m W H (frames.map (fun l => l.map (fun v => normal (2 ^ d - 1) v))) (fun _ => True) := by
  have hw : Within s.cfg W H := ⟨hW, hH, by omega, h2⟩
  obtain ⟨hW', hH'⟩ := Within.le_size hw
  cases hf with
  | @mk lname a b hl ha hb =>
    obtain ⟨_, _, h8, h16⟩ := layouts_read _ hl
    have hz := y4mSizes_eq (c := s.cfg) hl hW hH h1 h2 (by rw [hx]; exact h3)
    rw [hx] at hz
    exact y4m_plays_of hu ho hh (y4mHeader_eq ha hW' hH') rfl hz h8 h16 hw hb hc hk hb'

/-! ## Streams that stop in the middle of a frame -/

theorem y4mReads_cut {s : Sys} {d p n yy uv : ℕ} {params luma cut : List UInt8} {k : Kind} {mode : Bool} {img : List Fl} {st0 : Stream} (hp : OneLine params)
    (hc : cut <+: cs "FRAME" ++ (params ++ (ch '\n' :: luma))) (h0 : cut ≠ [])
    (hs : cut.length < 5 + params.length + 1 + yy) :
    ∃ img' st', y4mReads s ⟨0, ⟨none, st0⟩, none, yy, uv, d, mode⟩ n img ⟨cut, p, k⟩ = (false, RDEINVAL, img', st') := by
  have h5 : (cs "FRAME").length = 5 := by decide
  by_cases h1 : cut.length < 5
  · have : y4mFrameHeader ⟨cut, p, k⟩ = (false, RDEINVAL, (⟨cut, p, k⟩ : Stream).advance cut.length) := by
      unfold y4mFrameHeader
      rw [fread_eq]
      simp only
      rw [List.take_of_length_le (by omega), if_pos h1, if_neg (by simp [h0]), Nat.min_eq_right (by omega)]
    unfold y4mReads
    rw [this]
    exact ⟨_, _, rfl⟩
  · obtain ⟨t, ht⟩ := hc
    have e1 : cut = cs "FRAME" ++ cut.drop 5 := by
      have : cut.take 5 = cs "FRAME" := by
        have := congrArg (List.take 5) ht
        rw [List.take_append_of_le_length (by omega), List.take_append_of_le_length (by omega)] at this
        rw [this, ← h5, List.take_length]
      conv_lhs => rw [← List.take_append_drop 5 cut, this]
    generalize hq : cut.drop 5 = q at e1
    subst e1
    rw [List.append_assoc] at ht
    have ht' : q ++ t = params ++ (ch '\n' :: luma) := List.append_cancel_left ht
    by_cases h2 : q.length ≤ params.length
    · have hq' : q <+: params := List.prefix_of_prefix_length_le (l₃ := params ++ (ch '\n' :: luma)) ⟨t, ht'⟩ (List.prefix_append _ _) h2
      have hno : q.takeWhile (fun b => b != ch '\n') = q := by
        have := takeWhile_stops (a := q) (r := []) (P := fun b => b != ch '\n') (fun b hb => by
          simp only [bne_iff_ne]
          rintro rfl
          exact hp (hq'.subset hb)) (by simp [Stops])
        rwa [List.append_nil] at this
      have : ∃ st', y4mFrameHeader ⟨cs "FRAME" ++ q, p, k⟩ = (false, RDEINVAL, st') := by
        unfold y4mFrameHeader
        rw [fread_eq]
        have e1 : (cs "FRAME" ++ q).take 5 = cs "FRAME" := by rw [← h5, List.take_left]
        have e2 : (⟨cs "FRAME" ++ q, p, k⟩ : Stream).advance (min 5 (cs "FRAME" ++ q).length) = ⟨q, p + 5, k⟩ := by
          rw [Nat.min_eq_left (by simp [h5]), ← h5, advance_append]
        simp only [e1, e2, h5, hno]
        simp
      obtain ⟨st', this⟩ := this
      unfold y4mReads
      rw [this]
      exact ⟨_, _, rfl⟩
    · obtain ⟨r, hr⟩ : params <+: q := List.prefix_of_prefix_length_le (l₃ := params ++ (ch '\n' :: luma)) (List.prefix_append _ _) ⟨t, ht'⟩ (by omega)
      subst hr
      rw [List.append_assoc] at ht'
      have ht2 := List.append_cancel_left ht'
      cases r with
      | nil => simp at h2
      | cons b r =>
        obtain rfl : b = ch '\n' := by simpa using (List.cons.inj ht2).1
        simp only [List.length_append, List.length_cons, h5] at hs
        unfold y4mReads
        rw [y4mFrameHeader_eq hp]
        simp only [if_true]
        rw [if_neg (by omega)]
        exact ⟨_, _, rfl⟩

/-- What is left of a frame that stops before its luma is complete. -/
theorem y4m_step_cut {s : Sys} {W H d p uv : ℕ} {params luma cut : List UInt8} {k : Kind} {mode : Bool} (hp : OneLine params)
    (hc : cut <+: cs "FRAME" ++ (params ++ (ch '\n' :: luma))) (h0 : cut ≠ [])
    (hs : cut.length < 5 + params.length + 1 + W * H * wide d) :
    ∃ x', Ctx.step s W H (.y4m ⟨0, ⟨none, ⟨cut, p, k⟩⟩, none, W * H * wide d, uv, d, mode⟩) = some (none, RDEINVAL, x') := by
  obtain ⟨img', st', h⟩ := y4mReads_cut (s := s) (d := d) (p := p) (n := W * H) (uv := uv) (k := k) (mode := mode) (img := []) (st0 := ⟨cut, p, k⟩) hp hc h0 hs
  simp only [Ctx.step]
  rw [h]
  exact ⟨_, rfl⟩

/-- Frames, then something else on which reading stops. -/
theorem y4m_frames {s : Sys} {W H d p : ℕ} {x : Sampling} {ls : List (List ℕ)} {a r : List UInt8} {k : Kind} {mode : Bool} {e : RDError} (h8 : 8 ≤ d) (h16 : d ≤ 16)
    (hW : 0 < W * H) (hc : d = 8 ∨ s.cfg.littleEndian = true) (h1 : Y4mParts W H x d ls a)
    (hm : mode = true → k.seekable = true ∧ p + (a ++ r).length ≤ s.cfg.longMax)
    (hr : ∀ p, ∃ x', Ctx.step s W H (.y4m ⟨0, ⟨none, ⟨r, p, k⟩⟩, none, W * H * wide d, x.extra W H * wide d, d, mode⟩) = some (none, e, x')) :
    Ctx.frames s W H (.y4m ⟨0, ⟨none, ⟨a ++ r, p, k⟩⟩, none, W * H * wide d, x.extra W H * wide d, d, mode⟩) =
      (ls.map (fun l => l.map (fun v => normal (2 ^ d - 1) v)), some e) := by
  induction h1 generalizing p with
  | nil =>
    obtain ⟨x', h⟩ := hr p
    exact Ctx.frames_stop h
  | @cons l ls a b h1 h2 ih =>
    rw [List.append_assoc] at hm ⊢
    rw [Ctx.frames_next hW (y4m_step h8 h16 hc h1 hm), ih (fun h => ⟨(hm h).1, by have := (hm h).2; simp only [List.length_append] at this ⊢; omega⟩)]
    rfl

end Verif
