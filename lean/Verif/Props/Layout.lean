import Verif.Proofs.Layout
import Verif.Props.Results
import Verif.Props.Limit

/-! # The bindings read the library's structures where they are (C87) -/

namespace Verif.Props

open Spec

variable {s : Sys} {mem : Mem} {a : Abi}

/-! ## JavaScript -/

/-- **C87** JavaScript reads a list of results as it is in the memory of WebAssembly, if indices and count are below `2 ^ 31`. -/
theorem C87_js {resp countp res : ℕ} {l : List Res} (hl : HoldsResolutions mem wasm32 res l) (hr : HoldsNat mem true resp 4 res)
    (hc : HoldsNat mem true countp 4 l.length) (al : 4 ∣ resp ∧ 4 ∣ countp ∧ 4 ∣ res) (hi : ∀ r ∈ l, r.index < 2 ^ 31) (hn : l.length < 2 ^ 31) :
    jsResolutions mem resp countp = some (l.map (fun r => ((r.index : ℤ), r.confidence))) := by
  unfold jsResolutions
  rw [jsInt_holds al.2.1 hc hn, jsPtr_holds al.1 hr]
  simp only [Option.bind_eq_bind, Option.bind_some, Int.toNat_natCast]
  refine mapM_range fun i r h => ?_
  obtain ⟨h1, h2⟩ := hl i r h
  have a1 : 4 ∣ res + i * 8 := (al.2.2).add (Dvd.dvd.mul_left (by norm_num) i)
  unfold jsResolution
  rw [jsInt_holds a1 h1 (hi r (List.mem_of_getElem? h)), jsFloat_holds (p := res + i * 8 + 4) (a1.add (by norm_num)) h2]
  rfl

/-- Numbers and count in a list of results stay within the side. -/
theorem list_small {W range : ℕ} {l : List Res} (h : ∃ init, l = init ++ [⟨W, .fin true (-1)⟩] ∧ (init.map Res.index).Nodup ∧
    ∀ r ∈ init, range ≤ r.index ∧ r.index + range < W) (hr : 1 ≤ range) (hW : 1 ≤ W) : l.length ≤ W ∧ ∀ r ∈ l, r.index ≤ W := by
  obtain ⟨init, rfl, h1, h2⟩ := h
  constructor
  · have h3 := Finset.card_le_card (s := (init.map Res.index).toFinset) (t := Finset.Ico 1 W) (fun n hn => by
      obtain ⟨r, hr', rfl⟩ := List.mem_map.mp (List.mem_toFinset.mp hn)
      have := h2 r hr'
      rw [Finset.mem_Ico]
      omega)
    rw [List.toFinset_card_of_nodup h1, Nat.card_Ico, List.length_map] at h3
    rw [List.length_append, List.length_singleton]
    omega
  · intro r hr'
    rcases List.mem_append.mp hr' with h | h
    · have := (h2 r h).2; omega
    · rw [List.mem_singleton.mp h]

/-- **C87** On a platform with 32 bit `int`, the indices and counts of results are always below `2 ^ 31`. -/
theorem C87_small (hs : Build s) (h31 : s.cfg.intMax < 2 ^ 31) {m : Option Method} {p : Option Params} (hm : ValidMethod? m) (hp : ValidParams? s.cfg p)
    {W H : ℕ} {ev : List (Call × Obs)} {x : Analysis} {rw rh : Option (List Res)} {cw ch : ℕ} (h : Returned s m W H p ev x rw cw rh ch)
    {l : List Res} (hl : rw = some l ∨ rh = some l) : l.length < 2 ^ 31 ∧ ∀ r ∈ l, r.index < 2 ^ 31 := by
  have hg := (returned_got hs hm hp h).inv
  have hside : sideMax s.cfg ≤ s.cfg.intMax := by
    unfold sideMax
    split
    · exact Nat.div_le_self _ _
    · exact le_rfl
  have hW : W ≤ sideMax s.cfg := hg.width ▸ hg.good.sideX
  have hH : H ≤ sideMax s.cfg := hg.height ▸ hg.good.sideY
  have hW1 : 1 ≤ W := hg.width ▸ hg.good.width_pos
  have hH1 : 1 ≤ H := hg.height ▸ hg.good.height_pos
  have hrange : 1 ≤ (effParams s.cfg (effMethod m) p).range := hg.params ▸ hg.good.range_pos
  obtain ⟨k1, k2⟩ := C03_candidates_inside hs hm hp h
  rcases hl with hl | hl
  · obtain ⟨g1, g2⟩ := list_small (k1 l hl) hrange hW1
    exact ⟨by omega, fun r hr => by have := g2 r hr; omega⟩
  · obtain ⟨g1, g2⟩ := list_small (k2 l hl) hrange hH1
    exact ⟨by omega, fun r hr => by have := g2 r hr; omega⟩

/-- **C87** So JavaScript gets the lists the library returned, in any history: whatever memory holds them at `res`, with the pointer and the count
where the library put them. -/
theorem C87_js_results {b : Backend} {e : Env} {m : Option Method} {p : Option Params} (hm : ValidMethod? m) (hp : ValidParams? (ilp32 b) p) {W H : ℕ}
    (hP : W * H ≤ 200000000) {ev : List (Call × Obs)} {x : Analysis} {rw rh : Option (List Res)} {cw ch : ℕ}
    (h : Returned ⟨ilp32 b, e⟩ m W H p ev x rw cw rh ch) {l : List Res} (hl : rw = some l ∨ rh = some l) {resp countp res : ℕ}
    (hmem : HoldsResolutions mem wasm32 res l) (hr : HoldsNat mem true resp 4 res) (hc : HoldsNat mem true countp 4 l.length)
    (al : 4 ∣ resp ∧ 4 ∣ countp ∧ 4 ∣ res) : jsResolutions mem resp countp = some (l.map (fun r => ((r.index : ℤ), r.confidence))) := by
  have ht := _root_.Verif.Demo.ilp32_build b e (P := 200000000) (I := 2 ^ 32 - 1) (S := 2 ^ 32 - 1) (by norm_num) le_rfl (by norm_num) (by norm_num)
  have h' := (C86_returned (s := ⟨ilp32 b, e⟩) (_root_.Verif.Demo.ilp32_wf b) ht (by simp [ilp32]) hm hp hP).mp h
  obtain ⟨g1, g2⟩ := C87_small ht (by norm_num [relimit, ilp32]) hm (Twin.valid.mpr hp) h' hl
  exact C87_js hmem hr hc al g2 g1

/-- **C87** `methods` in JavaScript lists a table of methods with their names, thresholds and addresses. -/
theorem C87_js_methods : ∀ {l : List Method} {p fuel : ℕ}, HoldsMethods mem wasm32 p l → 4 ∣ p → (∀ x ∈ l, (cs x.name).length + l.length < fuel) → l.length < fuel →
    jsMethods mem fuel p = some (l.mapIdx (fun i x => (cs x.name, x.threshold, p + i * 12)))
  | [], p, fuel, h, hp, _, hf => by
    obtain ⟨fuel, rfl⟩ : ∃ k, fuel = k + 1 := ⟨fuel - 1, by omega⟩
    have h0 : HoldsNat mem true p 4 0 := by have := h.2; rwa [List.length_nil, Nat.zero_mul, Nat.add_zero] at this
    simp only [jsMethods, jsPtr_holds hp h0]
    rfl
  | x :: l, p, fuel, h, hp, hx, hf => by
    obtain ⟨fuel, rfl⟩ : ∃ k, fuel = k + 1 := ⟨fuel - 1, by omega⟩
    obtain ⟨h1, q, hq, h2, h3⟩ := h.1 0 x rfl
    rw [Nat.zero_mul, Nat.add_zero] at h1 h2
    have hlen := hx x List.mem_cons_self
    rw [List.length_cons] at hlen hf
    have ih := C87_js_methods (l := l) (p := p + 12) (fuel := fuel) ⟨fun i y hy => by
      have := h.1 (i + 1) y (by simpa using hy)
      have e : p + (i + 1) * (3 * wasm32.ptr) = p + 12 + i * (3 * wasm32.ptr) := by show p + (i + 1) * 12 = p + 12 + i * 12; ring
      rwa [e] at this, by
      have := h.2
      have e : p + (x :: l).length * (3 * wasm32.ptr) = p + 12 + l.length * (3 * wasm32.ptr) := by
        rw [List.length_cons]; show p + (l.length + 1) * 12 = p + 12 + l.length * 12; ring
      rwa [e] at this⟩ (hp.add (by norm_num)) (fun y hy => by have := hx y (List.mem_cons_of_mem _ hy); rw [List.length_cons] at this; omega) (by omega)
    simp only [jsMethods, jsPtr_holds hp h2, Option.bind_eq_bind, Option.bind_some, if_neg hq, jsMethod, readString_holds _ _ _ h3 (show _ < fuel by omega),
      jsFloat_holds (hp.add (by norm_num) : 4 ∣ p + 8) h1, ih]
    show some _ = some _
    rw [List.mapIdx_cons, Nat.zero_mul, Nat.add_zero]
    congr 2
    congr 1
    funext i y
    rw [show p + 12 + i * 12 = p + (i + 1) * 12 by ring]

/-- **C87** The samples put into the heap by JavaScript are the array of `float`s the library reads; the rest of memory stays. -/
theorem C87_js_image {image : List Fl} (hi : ∀ x ∈ image, IsFloat x) {buf : ℕ} (hb : 4 ∣ buf) :
    (∀ i x, image[i]? = some x → HoldsFloat (jsSetFloats mem image (buf / 4)) true (buf + 4 * i) x) ∧
      ∀ p, p < buf ∨ buf + 4 * image.length ≤ p → jsSetFloats mem image (buf / 4) p = mem p := by
  obtain ⟨k, rfl⟩ := hb
  rw [Nat.mul_div_cancel_left k (by norm_num)]
  constructor
  · intro i x h
    have hlen : i < image.length := (List.getElem?_eq_some_iff.mp h).1
    obtain ⟨h1, h2⟩ := floatOfBits_bits (hi x (List.mem_of_getElem? h))
    refine ⟨bitsOfFloat x, h2, h1, fun j hj => ?_⟩
    unfold jsSetFloats
    rw [if_pos (by omega), show (4 * k + 4 * i + j - 4 * k) / 4 = i by omega, h, show (4 * k + 4 * i + j) % 4 = j by omega]
    rfl
  · intro p hp
    unfold jsSetFloats
    rw [if_neg (by omega)]

/-- **C87** The numbers in the JavaScript code are right for 4 byte `size_t` and pointers only: it cannot be used with 64 bit memory. -/
theorem C87_js_layout (ha : Usual a) :
    ((fieldAt a [.size, .float] 0 = 0 ∧ fieldAt a [.size, .float] 1 = 4 ∧ structSize a [.size, .float] = 8) ↔ a.size = 4) ∧
    ((fieldAt a [.ptr, .ptr, .float] 0 = 0 ∧ fieldAt a [.ptr, .ptr, .float] 2 = 8 ∧ structSize a [.ptr, .ptr, .float] = 12) ↔ a.ptr = 4) := by
  obtain ⟨h1, h2, h3, h4, h5, h6⟩ := layouts ha
  unfold pyResolutionFields at h1 h2 h3
  unfold pyMethodFields at h4 h5 h6
  rw [h1, h2, h3, h4, h5, h6]
  constructor <;> constructor <;> intro h <;> omega

/-! ## Python -/

/-- **C87** Python reads a list of results as it is in memory, on all platforms. -/
theorem C87_python (ha : Usual a) {res : ℕ} {l : List Res} (hl : HoldsResolutions mem a res l) : pyResolutions mem a res l.length = some l := by
  obtain ⟨h1, h2, h3, _⟩ := layouts ha
  unfold pyResolutions
  conv_rhs => rw [← List.map_id l]
  refine mapM_range fun i r h => ?_
  obtain ⟨g1, x, hx, g2⟩ := hl i r h
  unfold pyField
  rw [h1, h2, h3, Nat.add_zero, Nat.mul_comm (2 * a.size) i]
  have e1 : readNat mem a.little (res + i * (2 * a.size)) (a.bytes (pyResolutionFields.getD 0 .float)) = some r.index := readNat_holds g1
  have e2 : readNat mem a.little (res + i * (2 * a.size) + a.size) (a.bytes (pyResolutionFields.getD 1 .float)) = some x := readNat_holds g2
  rw [e1, e2]
  simp only [Option.bind_eq_bind, Option.bind_some, hx]
  rfl

/-- **C87** `methods` in Python lists a table of methods with their names, thresholds and addresses. -/
theorem C87_python_methods (ha : Usual a) : ∀ {l : List Method} {p fuel : ℕ}, HoldsMethods mem a p l → (∀ x ∈ l, x.name ≠ "") →
    (∀ x ∈ l, (cs x.name).length + l.length < fuel) → l.length < fuel →
    pyMethods mem a fuel p = some (l.mapIdx (fun i x => (cs x.name, x.threshold, p + i * (3 * a.ptr))))
  | [], p, fuel, h, _, _, hf => by
    obtain ⟨fuel, rfl⟩ : ∃ k, fuel = k + 1 := ⟨fuel - 1, by omega⟩
    obtain ⟨_, _, _, h4, _⟩ := layouts ha
    have h0 : HoldsNat mem a.little p a.ptr 0 := by have := h.2; rwa [List.length_nil, Nat.zero_mul, Nat.add_zero] at this
    have e : pyField mem a pyMethodFields 0 p = some 0 := by unfold pyField; rw [h4, Nat.add_zero]; exact readNat_holds h0
    simp only [pyMethods, e]
    rfl
  | x :: l, p, fuel, h, hne, hx, hf => by
    obtain ⟨fuel, rfl⟩ : ∃ k, fuel = k + 1 := ⟨fuel - 1, by omega⟩
    obtain ⟨_, _, _, h4, h5, h6⟩ := layouts ha
    obtain ⟨⟨t, ht, h1⟩, q, hq, h2, h3⟩ := h.1 0 x rfl
    rw [Nat.zero_mul, Nat.add_zero] at h1 h2
    have hlen := hx x List.mem_cons_self
    rw [List.length_cons] at hlen hf
    have ih := C87_python_methods ha (l := l) (p := p + 3 * a.ptr) (fuel := fuel) ⟨fun i y hy => by
      have := h.1 (i + 1) y (by simpa using hy)
      rwa [show p + (i + 1) * (3 * a.ptr) = p + 3 * a.ptr + i * (3 * a.ptr) by ring] at this, by
      have := h.2
      rwa [List.length_cons, show p + (l.length + 1) * (3 * a.ptr) = p + 3 * a.ptr + l.length * (3 * a.ptr) by ring] at this⟩
      (fun y hy => hne y (List.mem_cons_of_mem _ hy))
      (fun y hy => by have := hx y (List.mem_cons_of_mem _ hy); rw [List.length_cons] at this; omega) (by omega)
    have e1 : pyField mem a pyMethodFields 0 p = some q := by unfold pyField; rw [h4, Nat.add_zero]; exact readNat_holds h2
    have e2 : pyField mem a pyMethodFields 2 p = some t := by unfold pyField; rw [h5]; exact readNat_holds h1
    have hn : cs x.name ≠ [] := fun e => hne x List.mem_cons_self (by
      have : x.name.toList = [] := List.map_eq_nil_iff.mp e
      exact String.toList_eq_nil_iff.mp this)
    simp only [pyMethods, e1, e2, Option.bind_eq_bind, Option.bind_some, if_neg hq, readString_holds _ _ _ h3 (show _ < fuel by omega), if_neg hn, h6, ih, ht]
    show some _ = some _
    rw [List.mapIdx_cons, Nat.zero_mul, Nat.add_zero]
    congr 2
    congr 1
    funext i y
    rw [show p + 3 * a.ptr + i * (3 * a.ptr) = p + (i + 1) * (3 * a.ptr) by ring]

/-- **C87** `list_image_readers` in Python lists the names in the library's table. -/
theorem C87_python_readers : ∀ {l : List (List UInt8)} {p fuel : ℕ}, HoldsStrings mem a p l → (∀ x ∈ l, x.length + l.length < fuel) → l.length < fuel →
    pyReaders mem a fuel p = some l
  | [], p, fuel, h, _, hf => by
    obtain ⟨fuel, rfl⟩ : ∃ k, fuel = k + 1 := ⟨fuel - 1, by omega⟩
    have h0 : HoldsNat mem a.little p a.ptr 0 := by have := h.2; rwa [List.length_nil, Nat.zero_mul, Nat.add_zero] at this
    simp only [pyReaders, readNat_holds h0]
    rfl
  | x :: l, p, fuel, h, hx, hf => by
    obtain ⟨fuel, rfl⟩ : ∃ k, fuel = k + 1 := ⟨fuel - 1, by omega⟩
    obtain ⟨q, hq, h2, h3⟩ := h.1 0 x rfl
    rw [Nat.zero_mul, Nat.add_zero] at h2
    have hlen := hx x List.mem_cons_self
    rw [List.length_cons] at hlen hf
    have ih := C87_python_readers (l := l) (p := p + a.ptr) (fuel := fuel) ⟨fun i y hy => by
      have := h.1 (i + 1) y (by simpa using hy)
      rwa [show p + (i + 1) * a.ptr = p + a.ptr + i * a.ptr by ring] at this, by
      have := h.2
      rwa [List.length_cons, show p + (l.length + 1) * a.ptr = p + a.ptr + l.length * a.ptr by ring] at this⟩
      (fun y hy => by have := hx y (List.mem_cons_of_mem _ hy); rw [List.length_cons] at this; omega) (by omega)
    simp only [pyReaders, readNat_holds h2, Option.bind_eq_bind, Option.bind_some, if_neg hq, readString_holds _ _ _ h3 (show _ < fuel by omega), ih]
    rfl

/-! ## Examples -/

namespace Demo

/-- Some memory of WebAssembly from address 16 on: two results, a pointer to them and their number, the table of methods with its strings,
and an array of strings. -/
def bytes : List UInt8 := [2, 0, 0, 0, 0, 0, 0, 63, 4, 0, 0, 0, 0, 0, 128, 191, 16, 0, 0, 0, 2, 0, 0, 0, 100, 0, 0, 0, 7, 0, 0, 0, 205, 204, 12, 63, 105, 0, 0, 0, 7, 0, 0, 0, 205, 204, 204, 62, 109, 0, 0, 0, 7, 0, 0, 0, 10, 215, 35, 63, 114, 0, 0, 0, 7, 0, 0, 0, 0, 0, 0, 63, 0, 0, 0, 0, 0, 0, 0, 0, 0, 0, 0, 0, 115, 105, 103, 110, 0, 109, 97, 103, 0, 111, 114, 105, 103, 0, 122, 101, 114, 111, 120, 0, 100, 0, 0, 0, 105, 0, 0, 0, 0, 0, 0, 0]

def heap : Mem := fun p => if p < 16 then none else bytes[p - 16]?

theorem heap_resolutions : HoldsResolutions heap wasm32 16 [⟨2, .fin false (1 / 2)⟩, ⟨4, .fin true (-1)⟩] := by
  intro i r h
  match i with
  | 0 => cases h; exact ⟨by unfold HoldsNat; decide +kernel, 0x3F000000, by decide +kernel, by unfold HoldsNat; decide +kernel⟩
  | 1 => cases h; exact ⟨by unfold HoldsNat; decide +kernel, 0xBF800000, by decide +kernel, by unfold HoldsNat; decide +kernel⟩
  | i + 2 => simp at h

theorem heap_string {p : ℕ} {s : List UInt8} (h0 : (0 : UInt8) ∉ s) (h : ∀ i < (s ++ [0]).length, heap (p + i) = (s ++ [0])[i]?) : HoldsString heap p s :=
  ⟨h0, fun i b hb => by rw [h i (List.getElem?_eq_some_iff.mp hb).1, hb]⟩

theorem heap_methods : HoldsMethods heap wasm32 40 methods := by
  refine ⟨fun i x h => ?_, by unfold HoldsNat; decide +kernel⟩
  match i with
  | 0 => cases h; exact ⟨⟨1057803469, by decide +kernel, by unfold HoldsNat; decide +kernel⟩, 100, by decide, by unfold HoldsNat; decide +kernel,
      heap_string (by decide +kernel) (by decide +kernel)⟩
  | 1 => cases h; exact ⟨⟨1053609165, by decide +kernel, by unfold HoldsNat; decide +kernel⟩, 105, by decide, by unfold HoldsNat; decide +kernel,
      heap_string (by decide +kernel) (by decide +kernel)⟩
  | 2 => cases h; exact ⟨⟨1059313418, by decide +kernel, by unfold HoldsNat; decide +kernel⟩, 109, by decide, by unfold HoldsNat; decide +kernel,
      heap_string (by decide +kernel) (by decide +kernel)⟩
  | 3 => cases h; exact ⟨⟨1056964608, by decide +kernel, by unfold HoldsNat; decide +kernel⟩, 114, by decide, by unfold HoldsNat; decide +kernel,
      heap_string (by decide +kernel) (by decide +kernel)⟩
  | i + 4 => simp [methods] at h

theorem heap_strings : HoldsStrings heap wasm32 120 [cs "sign", cs "mag"] := by
  refine ⟨fun i x h => ?_, by unfold HoldsNat; decide +kernel⟩
  match i with
  | 0 => cases h; exact ⟨100, by decide, by unfold HoldsNat; decide +kernel, heap_string (by decide +kernel) (by decide +kernel)⟩
  | 1 => cases h; exact ⟨105, by decide, by unfold HoldsNat; decide +kernel, heap_string (by decide +kernel) (by decide +kernel)⟩
  | i + 2 => simp at h

end Demo

/-- The hypotheses of `C87_js` can be met, and this is what is read. -/
example : jsResolutions Demo.heap 32 36 = some [(2, .fin false (1 / 2)), (4, .fin true (-1))] :=
  C87_js Demo.heap_resolutions (by unfold HoldsNat; decide +kernel) (by unfold HoldsNat; decide +kernel) (by decide) (by decide) (by decide)

/-- An index of `2 ^ 31` would be read as a negative number. -/
example : jsInt (fun p => [0, 0, 0, 128][p]?) 0 = some (-2 ^ 31) := by decide +kernel

/-- The hypotheses of `C87_small` can be met. -/
example : Demo.listX.length < 2 ^ 31 ∧ ∀ r ∈ Demo.listX, r.index < 2 ^ 31 :=
  C87_small Demo.sys_build (by decide +kernel) Demo.none_method Demo.params_valid demo_returned (Or.inl rfl)

/-- The hypotheses of `C87_js_results` can be met. -/
example : ∃ ev x rw cw rh ch, Returned Demo.wasm none 4 2 (some Demo.params) ev x rw cw rh ch ∧
    rw = some [⟨2, .fin false (1/2)⟩, ⟨1, .fin false 0⟩, ⟨4, .fin true (-1)⟩] := by
  have ht := _root_.Verif.Demo.ilp32_build .fftw _root_.Verif.Demo.env (P := 200000000) (I := 2 ^ 32 - 1) (S := 2 ^ 32 - 1) (by norm_num) le_rfl (by norm_num) (by norm_num)
  have hv : ValidParams? Demo.wasm.cfg (some Demo.params) := fun q hq => { Demo.params_valid q hq with range_le := by cases hq; decide +kernel }
  have h1 : ∃ o w', resdetect (relimit Demo.wasm 200000000 (2 ^ 32 - 1) (2 ^ 32 - 1)) (some Demo.image) 1 4 2 .all none (some Demo.params) Demo.w0 =
      some ((RDEOK, o), w') ∧ o.rw.map Buf.data = some [⟨2, .fin false (1/2)⟩, ⟨1, .fin false 0⟩, ⟨4, .fin true (-1)⟩] := by
    have h : (resdetect (relimit Demo.wasm 200000000 (2 ^ 32 - 1) (2 ^ 32 - 1)) (some Demo.image) 1 4 2 .all none (some Demo.params) Demo.w0).map
        (fun r => (r.1.1, r.1.2.rw.map Buf.data)) = some (RDEOK, some [⟨2, .fin false (1/2)⟩, ⟨1, .fin false 0⟩, ⟨4, .fin true (-1)⟩]) := by decide +kernel
    obtain ⟨⟨⟨e, o⟩, w'⟩, h1, h2⟩ := Option.map_eq_some_iff.mp h
    simp only [Prod.mk.injEq] at h2
    exact ⟨o, w', by rw [h1, h2.1], h2.2⟩
  obtain ⟨o, w', h1, h2⟩ := h1
  obtain ⟨ev, x, h3, _⟩ := C14_resdetect_history ht Demo.none_method (Twin.valid.mpr hv) (by decide +kernel) (by decide +kernel) Demo.w0_wf h1
  exact ⟨ev, x, _, _, _, _, (C86_returned (_root_.Verif.Demo.ilp32_wf .fftw) ht (by simp [ilp32]) Demo.none_method hv (by norm_num)).mpr h3, h2⟩

/-- The hypotheses of `C87_js_methods` can be met. -/
example : (jsMethods Demo.heap 100 40).map (fun l => l.map (fun x => (x.1, x.2.2))) = some [(cs "sign", 40), (cs "mag", 52), (cs "orig", 64), (cs "zerox", 76)] := by
  rw [C87_js_methods Demo.heap_methods (by norm_num) (by decide) (by decide)]
  decide +kernel

/-- The hypotheses of `C87_js_image` can be met. -/
example : HoldsFloat (jsSetFloats Demo.heap [.fin false 1, .fin true (-1)] 200) true (800 + 4 * 1) (.fin true (-1)) :=
  (C87_js_image (buf := 800) (image := [.fin false 1, .fin true (-1)]) (by
    intro x hx
    rcases List.mem_cons.mp hx with rfl | hx
    · exact ⟨0x3F800000, by norm_num, by decide +kernel⟩
    · rw [List.mem_singleton.mp hx]; exact ⟨0xBF800000, by norm_num, by decide +kernel⟩) (by norm_num)).1 1 _ rfl

/-- The hypotheses for Python can be met. -/
example : Usual wasm32 ∧ pyResolutions Demo.heap wasm32 16 2 = some [⟨2, .fin false (1 / 2)⟩, ⟨4, .fin true (-1)⟩] ∧
    pyReaders Demo.heap wasm32 100 120 = some [cs "sign", cs "mag"] ∧ (pyMethods Demo.heap wasm32 100 40).map (fun l => l.map (fun x => (x.1, x.2.2))) =
      some [(cs "sign", 40), (cs "mag", 52), (cs "orig", 64), (cs "zerox", 76)] := by
  have hu : Usual wasm32 := by unfold Usual; decide
  refine ⟨hu, C87_python hu Demo.heap_resolutions, C87_python_readers Demo.heap_strings (by decide) (by decide), ?_⟩
  rw [C87_python_methods hu Demo.heap_methods (by decide) (by decide) (by decide)]
  decide +kernel

/-- Both kinds of platforms. -/
example : Usual wasm32 ∧ Usual ⟨8, 8, false⟩ := by unfold Usual; decide

end Verif.Props
