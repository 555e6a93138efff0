import Verif.Proofs.PngLemmas

/-! The PNG reader: reading an image that is not interlaced. -/

namespace Verif
open Spec

variable {U F : Prop} {L S : List ℕ} {lib : Png} {fs : Fs} {s : Sys}

theorem pngCombine_eq {bytes : ℕ → UInt8} {p : ℕ → Bool} (hp : ∀ i, p i = true) {pre done : List UInt8} {todo n : ℕ} (h : todo ≤ n) :
    pngCombine p bytes pre.length todo done.length ((pre ++ done).map some ++ List.replicate n none) =
      some ((pre ++ done ++ (List.range todo).map (fun j => bytes (done.length + j))).map some ++ List.replicate (n - todo) none) := by
  induction todo generalizing done n with
  | zero => simp [pngCombine]
  | succ m ih =>
    unfold pngCombine
    rw [if_pos (hp _), wr_some (by simp; omega)]
    simp only [Option.bind_eq_bind, Option.bind_some]
    obtain ⟨n', rfl⟩ : ∃ n', n = n' + 1 := ⟨n - 1, by omega⟩
    have e1 : (List.map some (pre ++ done) ++ List.replicate (n' + 1) none).set (pre.length + done.length) (some (bytes done.length)) =
        List.map some (pre ++ (done ++ [bytes done.length])) ++ List.replicate n' none := by
      rw [List.set_append_right _ _ (by simp)]
      simp [List.replicate_succ]
    rw [e1, show done.length + 1 = (done ++ [bytes done.length]).length by simp, ih (by omega)]
    congr 2
    · rw [List.range_succ_eq_map]
      simp [Nat.add_comm, Nat.add_left_comm]
    · congr 1; omega

/-- The parts of a context that stay. -/
structure PngCtx.Same (x y : PngCtx) : Prop where
  block : y.block = x.block
  f : y.f = x.f
  png : y.png = x.png
  info : y.info = x.info
  width : y.width = x.width
  color : y.color = x.color
  depth : y.depth = x.depth
  interlaced : y.interlaced = x.interlaced
  numRows : y.numRows = x.numRows

theorem PngCtx.Same.refl (x : PngCtx) : x.Same x := ⟨rfl, rfl, rfl, rfl, rfl, rfl, rfl, rfl, rfl⟩

theorem PngCtx.Same.trans {x y z : PngCtx} (h1 : x.Same y) (h2 : y.Same z) : x.Same z :=
  ⟨h2.block.trans h1.block, h2.f.trans h1.f, h2.png.trans h1.png, h2.info.trans h1.info, h2.width.trans h1.width,
    h2.color.trans h1.color, h2.depth.trans h1.depth, h2.interlaced.trans h1.interlaced, h2.numRows.trans h1.numRows⟩

theorem PngCtx.next_same (x : PngCtx) : x.Same x.next := by
  unfold PngCtx.next
  split
  · exact ⟨rfl, rfl, rfl, rfl, rfl, rfl, rfl, rfl, rfl⟩
  · split <;> exact ⟨rfl, rfl, rfl, rfl, rfl, rfl, rfl, rfl, rfl⟩

theorem PngCtx.state_same (x : PngCtx) (st : ℕ) : x.Same { x with state := st } := ⟨rfl, rfl, rfl, rfl, rfl, rfl, rfl, rfl, rfl⟩

theorem pngReadRow_same {x x' : PngCtx} {buf buf' : List (Option UInt8)} {it : ℕ} (h : pngReadRow lib x buf it = some (.ret (buf', x'))) : x.Same x' := by
  unfold pngReadRow at h
  split at h
  · cases h; exact x.next_same
  · split at h
    · cases h
    · split at h
      · cases h
      · rename_i bytes st _
        simp only [Option.bind_eq_bind, Option.bind_eq_some_iff] at h
        obtain ⟨_, _, h⟩ := h
        cases h
        exact (x.state_same st).trans (PngCtx.next_same _)

theorem pngRows_same {step todo it : ℕ} {x x' : PngCtx} {buf buf' : List (Option UInt8)} (h : pngRows lib step todo it x buf = some (.ret (buf', x'))) :
    x.Same x' := by
  induction todo generalizing it x buf with
  | zero => cases h; exact .refl _
  | succ n ih =>
    unfold pngRows at h
    simp only [Option.bind_eq_bind, Option.bind_eq_some_iff] at h
    obtain ⟨r, h1, h2⟩ := h
    cases r with
    | exit => cases h2
    | ret r => exact (pngReadRow_same h1).trans (ih h2)

theorem pngPasses_same {step height todo : ℕ} {x x' : PngCtx} {buf buf' : List (Option UInt8)}
    (h : pngPasses lib step height todo x buf = some (.ret (buf', x'))) : x.Same x' := by
  induction todo generalizing x buf with
  | zero => cases h; exact .refl _
  | succ n ih =>
    unfold pngPasses at h
    simp only [Option.bind_eq_bind, Option.bind_eq_some_iff] at h
    obtain ⟨r, h1, h2⟩ := h
    cases r with
    | exit => cases h2
    | ret r => exact (pngRows_same h1).trans (ih h2)

/-- The rows of an image that is not interlaced, as long as libpng does not give up. -/
theorem pngRows_eq {todo : ℕ} {x : PngCtx} (hi : x.interlaced = false) (hc : x.color = 0 ∨ x.color = 2) (hd : x.depth = 8)
    (hpos : x.row + todo = x.numRows) (hpass : x.pass = 0) {pre : List UInt8} :
    (pngRows lib (x.width * pngWays x.color) todo pre.length x (pre.map some ++ List.replicate (todo * (x.width * pngWays x.color)) none) = some .exit ∧
      ¬ ∃ rows, rows.length = todo ∧ lib.Delivers x.state rows) ∨
    ∃ rows x', pngRows lib (x.width * pngWays x.color) todo pre.length x (pre.map some ++ List.replicate (todo * (x.width * pngWays x.color)) none) =
        some (.ret ((pre ++ rows.flatten).map some, x')) ∧ rows.length = todo ∧ (∀ r ∈ rows, r.length = x.width * pngWays x.color) ∧
      lib.Delivers x.state rows := by
  induction todo generalizing x pre with
  | zero => exact Or.inr ⟨[], x, by simp [pngRows], rfl, by simp, .done _⟩
  | succ n ih =>
    unfold pngRows
    cases hr : lib.row x.state with
    | exit =>
      left
      have hrow : ∀ buf, pngReadRow lib x buf pre.length = some .exit := by
        intro buf
        unfold pngReadRow
        rw [if_neg (by simp [hi]), if_neg (by omega)]
        simp only [hr]
      rw [hrow]
      refine ⟨rfl, ?_⟩
      rintro ⟨rows, h1, h2⟩
      cases h2 with
      | done => simp at h1
      | more h3 => rw [hr] at h3; cases h3
    | ret v =>
      obtain ⟨bytes, st⟩ := v
      have hrow : pngReadRow lib x (pre.map some ++ List.replicate ((n + 1) * (x.width * pngWays x.color)) none) pre.length =
          some (.ret ((pre ++ (List.range (x.width * pngWays x.color)).map bytes).map some ++ List.replicate (n * (x.width * pngWays x.color)) none,
            ({ x with state := st } : PngCtx).next)) := by
        unfold pngReadRow
        rw [if_neg (by simp [hi]), if_neg (by omega)]
        simp only [hr]
        rw [show pngRowBytes x.color x.depth x.width = x.width * pngWays x.color by rw [hd, pngRowBytes_eq hc]]
        have hcomb := pngCombine_eq (bytes := bytes)
          (p := fun i => !x.interlaced || pngInPass x.pass (i / max 1 (pngChannels x.color * x.depth / 8))) (by simp [hi])
          (pre := pre) (done := []) (todo := x.width * pngWays x.color)
          (n := (n + 1) * (x.width * pngWays x.color)) (by rw [Nat.succ_mul]; omega)
        simp only [List.length_nil, List.append_nil, Nat.zero_add] at hcomb
        rw [hcomb]
        simp only [Option.bind_eq_bind, Option.bind_some, pure]
        have e1 : (n + 1) * (x.width * pngWays x.color) - x.width * pngWays x.color = n * (x.width * pngWays x.color) := by
          rw [Nat.succ_mul]; omega
        rw [e1]
      rw [hrow]
      simp only [Option.bind_eq_bind, Option.bind_some]
      set now := (List.range (x.width * pngWays x.color)).map bytes with hnow
      have hlen : now.length = x.width * pngWays x.color := by simp [hnow]
      have hfun : ∀ j (h : j < now.length), bytes j = now[j] := by
        intro j h
        simp [hnow]
      have hpre : pre.length + x.width * pngWays x.color = (pre ++ now).length := by rw [List.length_append, hlen]
      rw [hpre]
      by_cases hn : n = 0
      · subst hn
        right
        refine ⟨[now], ({ x with state := st } : PngCtx).next, by unfold pngRows; simp, rfl, by simpa using hlen, .more hr hfun (.done _)⟩
      · have hnext : ({ x with state := st } : PngCtx).next = { x with state := st, row := x.row + 1 } := by
          unfold PngCtx.next
          rw [if_pos (by simp only; omega)]
        rw [hnext]
        have hih := ih (x := { x with state := st, row := x.row + 1 }) (pre := pre ++ now) hi hc hd (by simp only; omega) hpass
        simp only at hih
        rcases hih with ⟨h1, h2⟩ | ⟨rows, x', h1, h2, h3, h4⟩
        · left
          refine ⟨h1, ?_⟩
          rintro ⟨rows, h3, h4⟩
          cases h4 with
          | done => simp at h3
          | more h5 _ h6 =>
            rw [hr] at h5
            cases h5
            exact h2 ⟨_, by simpa using h3, h6⟩
        · right
          refine ⟨now :: rows, x', ?_, by simp [h2], ?_, .more hr hfun h4⟩
          · rw [h1]; simp
          · intro r hr'
            rcases List.mem_cons.mp hr' with rfl | h
            · exact hlen
            · exact h3 r h

theorem Png.Delivers.unique {st n : ℕ} {rows rows' : List (List UInt8)} (h : lib.Delivers st rows) (h' : lib.Delivers st rows')
    (hl : rows.length = rows'.length) (hw : ∀ r ∈ rows, r.length = n) (hw' : ∀ r ∈ rows', r.length = n) : rows = rows' := by
  induction h generalizing rows' with
  | done =>
    cases rows' with
    | nil => rfl
    | cons _ _ => simp at hl
  | more h1 h2 h3 ih =>
    cases h' with
    | done => simp at hl
    | more h4 h5 h6 =>
      rw [h1] at h4
      cases h4
      have e1 := hw _ List.mem_cons_self
      have e2 := hw' _ List.mem_cons_self
      rw [ih h6 (by simpa using hl) (fun r hr => hw r (List.mem_cons_of_mem _ hr)) (fun r hr => hw' r (List.mem_cons_of_mem _ hr))]
      congr 1
      refine List.ext_getElem (by rw [e1, e2]) (fun j h h' => ?_)
      rw [← h2 j h, ← h5 j h']

/-! ## Conversion -/

/-- Bytes as pixels. -/
theorem dots_of {c : ℕ} (hc : c = 0 ∨ c = 2) {n : ℕ} {bytes : List UInt8} (h : bytes.length = n * pngWays c) :
    ∃ dots : List Dot, bytes = (dots.map Dot.bytes).flatten ∧ dots.length = n ∧ ∀ d ∈ dots, d.isColour = decide (c = 2) := by
  induction n generalizing bytes with
  | zero =>
    refine ⟨[], ?_, rfl, by simp⟩
    simp at h
    simp [h]
  | succ n ih =>
    rcases hc with rfl | rfl
    · simp only [show pngWays 0 = 1 from rfl, Nat.mul_one] at h ih
      cases bytes with
      | nil => simp at h
      | cons b bs =>
        obtain ⟨ds, h1, h2, h3⟩ := ih (bytes := bs) (by simpa using h)
        refine ⟨.gray b :: ds, by rw [h1]; rfl, by simp [h2], ?_⟩
        intro d hd
        rcases List.mem_cons.mp hd with rfl | hd
        · rfl
        · exact h3 d hd
    · simp only [show pngWays 2 = 3 from rfl] at h ih
      match bytes, h with
      | r :: g :: b :: bs, h =>
        obtain ⟨ds, h1, h2, h3⟩ := ih (bytes := bs) (by simp at h; omega)
        refine ⟨.colour r g b :: ds, by rw [h1]; rfl, by simp [h2], ?_⟩
        intro d hd
        rcases List.mem_cons.mp hd with rfl | hd
        · rfl
        · exact h3 d hd
      | [], h => simp at h
      | [_], h => simp at h; omega
      | [_, _], h => simp at h; omega

theorem rd_mid {pre post : List UInt8} {b : UInt8} {i : ℕ} (h : i = pre.length) : rd ((pre ++ b :: post).map some) i = some (some b) := by
  subst h
  unfold rd
  simp

theorem pngSum_eq {c : ℕ} (hc : c = 0 ∨ c = 2) {d : Dot} (hd : d.isColour = decide (c = 2)) {pre post : List UInt8} {i : ℕ}
    (hi : pre.length = i * pngWays c) :
    (pngSum ((pre ++ (d.bytes ++ post)).map some) (i * pngWays c) (pngWays c) 0 (binary32.ofNat 0)).map
      (fun v => binary32.div v (binary32.ofNat (pngWays c))) = some d.sample := by
  rw [← hi]
  rcases hc with rfl | rfl
  · cases d with
    | gray v =>
      simp only [show pngWays 0 = 1 from rfl, Dot.bytes, List.cons_append, List.nil_append]
      unfold pngSum
      rw [rd_mid (by omega)]
      simp only [Option.bind_eq_bind, Option.bind_some]
      unfold pngSum
      rw [zero_add_sample, Option.map_some, sample_div_one]
      rfl
    | colour r g b => cases hd
  · cases d with
    | gray v => cases hd
    | colour r g b =>
      simp only [show pngWays 2 = 3 from rfl, Dot.bytes, List.cons_append, List.nil_append]
      unfold pngSum
      rw [rd_mid (by omega)]
      simp only [Option.bind_eq_bind, Option.bind_some]
      unfold pngSum
      rw [show pre ++ r :: g :: b :: post = (pre ++ [r]) ++ g :: (b :: post) by simp, rd_mid (by simp)]
      simp only [Option.bind_eq_bind, Option.bind_some]
      unfold pngSum
      rw [show (pre ++ [r]) ++ g :: (b :: post) = (pre ++ [r, g]) ++ b :: post by simp, rd_mid (by simp)]
      simp only [Option.bind_eq_bind, Option.bind_some]
      unfold pngSum
      rw [zero_add_sample, byteSample_eq, byteSample_eq, Option.map_some]
      rfl

theorem pngConvert_eq {c : ℕ} (hc : c = 0 ∨ c = 2) {dots : List Dot} (hd : ∀ d ∈ dots, d.isColour = decide (c = 2)) {pre : List UInt8} {i : ℕ}
    (hi : pre.length = i * pngWays c) {img : List Fl} (hl : i + dots.length ≤ img.length) :
    pngConvert ((pre ++ (dots.map Dot.bytes).flatten).map some) (pngWays c) dots.length i img = some (fill img i (dots.map Dot.sample)) := by
  induction dots generalizing pre i img with
  | nil => show some img = some (fill img i []); rw [fill_nil]
  | cons d ds ih =>
    simp only [List.length_cons] at hl ⊢
    unfold pngConvert
    have hs := pngSum_eq hc (hd d (by simp)) (post := (ds.map Dot.bytes).flatten) hi
    simp only [List.map_cons, List.flatten_cons]
    obtain ⟨v, hv, he⟩ := Option.map_eq_some_iff.mp hs
    rw [hv]
    simp only [Option.bind_eq_bind, Option.bind_some]
    rw [wr_some (by omega), Option.bind_some, he]
    have hlen : d.bytes.length = pngWays c := by
      have := hd d (by simp)
      rcases hc with rfl | rfl <;> cases d <;> first | rfl | cases this
    rw [← List.append_assoc, ih (fun d hd' => hd d (List.mem_cons_of_mem _ hd')) (by rw [List.length_append, hi, hlen]; ring) (by simp; omega),
      fill_set (by omega)]

end Verif
