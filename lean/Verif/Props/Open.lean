import Verif.Proofs.OpenLemmas
import Verif.Spec.DemoImage

/-!
# Opening images (C29, C30)

`Io` lists the readers compiled in.  The readers on top of libraries are not modelled; where they matter, they are assumed to
keep the contract `Reader.Sound`, which the built-in readers are proved to keep.
-/

namespace Verif.Props

open Spec

variable {s : Sys} {io : Io} {fn ft : Option (List UInt8)} {hasW hasH wantBuf : Bool}

/-- **C29** Whatever `resdet_open_image` is given: it returns NULL exactly if it reports an error, and then sizes and buffer are
0 and NULL and no block or stream is left.  Otherwise the size is positive and within the limit, the buffer is a new block of
width x height floats, and after any reads and seeks closing the image and freeing the buffer releases everything. -/
theorem C29_open {w w' : World} {o : Opened} (hio : io.Contract s.cfg) (hw : w.WF)
    (h : resdetOpenImage s io fn ft hasW hasH wantBuf w = some (o, w')) : OpenOutcome s wantBuf w o w' :=
  outcome_of_act (fun _ _ _ => apiOpen_act hio) hw h

/-- **C29** The same for `resdet_open_image_with_reader`. -/
theorem C29_open_with_reader {w w' : World} {o : Opened} (hio : io.Contract s.cfg) (hw : w.WF)
    (h : resdetOpenImageWithReader s io fn ft hasW hasH wantBuf w = some (o, w')) : OpenOutcome s wantBuf w o w' :=
  outcome_of_act (fun _ _ _ => apiOpenWith_act hio) hw h

/-- A good file, a missing one, and one of an unknown type. -/
example : Demo.io.Contract Demo.sys.cfg ∧ Demo.w0.WF ∧
    (resdetOpenImage Demo.sys Demo.io (some (cs "a.PGM")) none true true true Demo.w0).map (fun r => (r.1.width, r.1.height, r.1.error)) =
      some (2, 1, RDEOK) ∧
    (resdetOpenImage Demo.sys Demo.io (some (cs "b.pgm")) none true true true Demo.w0).map (fun r => r.1.error) = some (-2) ∧
    (resdetOpenImage Demo.sys Demo.io (some (cs "b.gif")) none true true true Demo.w0).map (fun r => r.1.error) = some RDEUNSUPP ∧
    (resdetOpenImageWithReader Demo.sys Demo.io (some (cs "a.pgm")) (some (cs "pGm")) true true false Demo.w0).map (fun r => r.1.width) = some 2 :=
  ⟨Demo.io_contract _, Demo.w0_wf, by decide +kernel, by decide +kernel, by decide +kernel, by decide +kernel⟩

/-- **C29** Without a place for the width or the height, or without a file name (or the name of a reader where one is asked for), nothing is
opened: the answer is NULL and `RDEPARAM`, and the system is not even asked. -/
theorem C29_null {w : World} (h : hasW = false ∨ hasH = false ∨ fn = none) :
    resdetOpenImage s io fn ft hasW hasH wantBuf w = some (⟨none, 0, 0, none, RDEPARAM⟩, w) ∧
    resdetOpenImageWithReader s io fn ft hasW hasH wantBuf w = some (⟨none, 0, 0, none, RDEPARAM⟩, w) ∧
    resdetOpenImageWithReader s io ft none hasW hasH wantBuf w = some (⟨none, 0, 0, none, RDEPARAM⟩, w) := by
  unfold resdetOpenImage resdetOpenImageWithReader
  refine ⟨?_, ?_, ?_⟩
  · rcases h with h | h | h <;> cases hasW <;> cases hasH <;> first | rfl | (subst h; rfl) | cases h
  · rcases h with h | h | h <;> cases hasW <;> cases hasH <;> first | rfl | (subst h; rfl) | cases h
  · cases hasW <;> cases hasH <;> cases ft <;> rfl

example : (true = false ∨ false = false ∨ (some (cs "a.pgm") : Option (List UInt8)) = none) := by decide

/-- **C30** Every file name and type determine one extension. -/
theorem C30_extension (name : List UInt8) (ft : Option (List UInt8)) : ∃! ext, Extension name ft ext := by
  obtain ⟨ext, h⟩ := extension_total name ft
  exact ⟨ext, h, fun e he => (extension_spec he).symm.trans (extension_spec h)⟩

/-- **C30** The built-in readers accept exactly their own extension, in any case. -/
theorem C30_accepts (fs : Fs) {ext : List UInt8} (he : Plainly s.cfg ext) :
    ((pgmReader s fs).supportsExt ext = some true ↔ SameText ext (cs "pgm")) ∧
    ((pfmReader s fs).supportsExt ext = some true ↔ SameText ext (cs "pfm")) ∧
    ((y4mReader s fs).supportsExt ext = some true ↔ SameText ext (cs "y4m")) ∧
    ∀ r, r = pgmReader s fs ∨ r = pfmReader s fs ∨ r = y4mReader s fs → (r.supportsExt ext).isSome := by
  obtain ⟨r1, h1, h1'⟩ := strieq_spec he (ascii s.cfg "pgm" (by decide))
  obtain ⟨r2, h2, h2'⟩ := strieq_spec he (ascii s.cfg "pfm" (by decide))
  obtain ⟨r3, h3, h3'⟩ := strieq_spec he (ascii s.cfg "y4m" (by decide))
  have e1 : (pgmReader s fs).supportsExt ext = some r1 := h1
  have e2 : (pfmReader s fs).supportsExt ext = some r2 := h2
  have e3 : (y4mReader s fs).supportsExt ext = some r3 := h3
  rw [e1, e2, e3]
  simp only [Option.some.injEq]
  refine ⟨h1', h2', h3', ?_⟩
  rintro r (rfl | rfl | rfl)
  · rw [e1]; rfl
  · rw [e2]; rfl
  · rw [e3]; rfl

/-- **C30** `resdet_open_image` uses the first reader in the list that accepts the extension, or fails with RDEUNSUPP if none
does.  Partial: for an extension whose characters may be passed to `tolower` (see `C30_fails`).  The external readers'
answers are taken as given. -/
theorem C30_by_type_partial {name ext : List UInt8} (he : Extension name ft ext) (hp : Plainly s.cfg ext)
    (hx : ∀ r, io.libjpeg = some r ∨ io.libpng = some r ∨ io.ffmpeg = some r ∨ io.magickwand = some r → (r.supportsExt ext).isSome) :
    (∀ r, First (fun r => r.supportsExt ext = some true) (imageReaders s io) r →
      OpensWith (resdetOpenImage s io (some name) ft true true wantBuf) s r name wantBuf) ∧
    ((∀ r ∈ imageReaders s io, r.supportsExt ext ≠ some true) → Refuses (resdetOpenImage s io (some name) ft true true wantBuf)) := by
  have hd : ∀ r ∈ imageReaders s io, (r.supportsExt ext).isSome := by
    intro r hr
    obtain ⟨_, _, _, h4⟩ := C30_accepts (s := s) io.fs hp
    unfold imageReaders at hr
    simp only [List.mem_append, Option.mem_toList] at hr
    rcases hr with (((((hr | hr) | hr) | hr) | hr) | hr) | hr
    · split at hr
      · cases hr
      · exact h4 r (Or.inl (List.mem_singleton.mp hr))
    · split at hr
      · cases hr
      · exact h4 r (Or.inr (Or.inl (List.mem_singleton.mp hr)))
    · split at hr
      · cases hr
      · exact h4 r (Or.inr (Or.inr (List.mem_singleton.mp hr)))
    · exact hx r (Or.inl hr)
    · exact hx r (Or.inr (Or.inl hr))
    · exact hx r (Or.inr (Or.inr (Or.inl hr)))
    · exact hx r (Or.inr (Or.inr (Or.inr hr)))
  obtain ⟨h1, h2⟩ := findReader_first hd
  have key : ∀ o, findReader (imageReaders s io) ext = some o → resdetOpenImage s io (some name) ft true true wantBuf = openImage s o name wantBuf := by
    intro o ho
    unfold resdetOpenImage
    rw [if_neg (by simp)]
    simp only
    rw [extension_spec he, ho]
    funext w
    exact M.bind_some rfl
  constructor
  · intro r hr
    have := key _ (h1 r hr)
    refine ⟨this, ?_⟩
    rw [this]
    exact fun w o w' i h hi => openImage_reader h hi
  · intro h
    rw [key _ (h2 h)]
    exact refuses

/-- **C30** `resdet_open_image_with_reader` uses the reader with the given name, ignoring case, or fails with RDEUNSUPP.
Partial: for a name whose characters may be passed to `tolower`. -/
theorem C30_by_name_partial {name rname : List UInt8} (hp : Plainly s.cfg rname) :
    (∀ x, First (fun x => SameText x.1 rname) (named s io) x →
      OpensWith (resdetOpenImageWithReader s io (some name) (some rname) true true wantBuf) s x.2 name wantBuf) ∧
    ((∀ x ∈ named s io, ¬ SameText x.1 rname) → Refuses (resdetOpenImageWithReader s io (some name) (some rname) true true wantBuf)) := by
  obtain ⟨h1, h2⟩ := findName_first hp (names_ascii (io := io) s.cfg) 0
  constructor
  · rintro ⟨n, r⟩ ⟨l1, l2, e, hx, hy⟩
    have e1 : listImageReaders io = l1.map Prod.fst ++ n :: l2.map Prod.fst := by rw [← named_fst (s := s), e]; simp
    have e2 : imageReaders s io = l1.map Prod.snd ++ r :: l2.map Prod.snd := by rw [← named_snd, e]; simp
    have hf := h1 _ _ _ e1 hx (by
      intro y hy'
      obtain ⟨z, hz, rfl⟩ := List.mem_map.mp hy'
      exact hy z hz)
    have key : resdetOpenImageWithReader s io (some name) (some rname) true true wantBuf = openImage s (some r) name wantBuf := by
      unfold resdetOpenImageWithReader
      rw [if_neg (by simp)]
      simp only [hf]
      have hrd : rd (imageReaders s io) (0 + (l1.map Prod.fst).length) = some r := by
        unfold rd
        rw [e2]
        simp
      funext w
      refine (M.bind_some rfl).trans ?_
      simp only [hrd]
      exact M.bind_some rfl
    refine ⟨key, ?_⟩
    rw [key]
    exact fun w o w' i h hi => openImage_reader h hi
  · intro h
    have hf := h2 (by
      intro n hn
      rw [← named_fst (s := s)] at hn
      obtain ⟨z, hz, rfl⟩ := List.mem_map.mp hn
      exact h z hz)
    have key : resdetOpenImageWithReader s io (some name) (some rname) true true wantBuf = openImage s none name wantBuf := by
      unfold resdetOpenImageWithReader
      rw [if_neg (by simp)]
      simp only [hf]
      funext w
      refine (M.bind_some rfl).trans ?_
      exact M.bind_some rfl
    rw [key]
    exact refuses

/-- A file type of a single non-ASCII character. -/
def oddType : List UInt8 := [200]

/-- **C30** does not hold for every extension: where `char` is signed, a non-ASCII character in it makes `resdet_strieq` call
`tolower` with a negative number, which is undefined (C17 7.4). -/
theorem C30_fails (hc : s.cfg.charSigned = true) (hp : io.omitPgm = false) (name : List UInt8) (w : World) :
    Extension name (some oddType) oddType ∧ resdetOpenImage s io (some name) (some oddType) true true wantBuf w = none := by
  have h1 : Extension name (some oddType) oddType := .given _ (by decide)
  refine ⟨h1, ?_⟩
  unfold resdetOpenImage
  rw [if_neg (by simp)]
  simp only
  rw [extension_spec h1]
  have : findReader (imageReaders s io) oddType = none := by
    unfold imageReaders
    rw [hp]
    simp only [Bool.false_eq_true, if_false, List.append_assoc, List.cons_append, findReader]
    have : (pgmReader s io.fs).supportsExt oddType = none := by
      show strieq s.cfg oddType (cs "pgm") = none
      have h : oddType = [200] := rfl
      have h2 : cs "pgm" = [112, 103, 109] := by decide
      have h3 : ctypeOk s.cfg 200 = false := by simp [ctypeOk, hc]
      rw [h, h2]
      unfold strieq
      rw [h3]
      rfl
    rw [this]
    rfl
  rw [this]
  rfl

/-- Upper case, a type, and a file name with several dots, all choosing the PGM reader, and a name choosing the Y4M reader. -/
example : Extension (cs "a.PGM") none (cs "PGM") ∧ Extension (cs "x.y.pgm") none (cs "pgm") ∧
    Extension (cs "-") (some (cs "image/x-portable-graymap")) (cs "pgm") ∧ Plainly Demo.sys.cfg (cs "PGM") ∧
    First (fun r => r.supportsExt (cs "PGM") = some true) (imageReaders Demo.sys Demo.io) (pgmReader Demo.sys Demo.fs) ∧
    First (fun x => SameText x.1 (cs "y4M")) (named Demo.sys Demo.io) (cs "Y4M", y4mReader Demo.sys Demo.fs) ∧
    (∀ r ∈ imageReaders Demo.sys Demo.io, r.supportsExt (cs "gif") ≠ some true) ∧ Demo.sys.cfg.charSigned = true := by
  refine ⟨.suffix (cs "a") _ (by decide) (by decide), .suffix (cs "x.y") _ (by decide) (by decide), .mime _ _ (by decide), Or.inr (by decide),
    ⟨[], _, rfl, by decide, by simp⟩, ⟨[(cs "PGM", _), (cs "PFM", _)], [], rfl, by unfold SameText; decide, ?_⟩, ?_, by decide⟩
  · intro y hy
    simp only [List.mem_cons, List.not_mem_nil, or_false] at hy
    rcases hy with rfl | rfl <;> (unfold SameText; decide)
  · intro r hr
    simp only [imageReaders, Demo.io, Bool.false_eq_true, if_false, Option.toList_none, List.append_nil, List.mem_append, List.mem_singleton] at hr
    rcases hr with (rfl | rfl) | rfl
    · show strieq _ _ _ ≠ _; decide
    · show strieq _ _ _ ≠ _; decide
    · show strieq _ _ _ ≠ _; decide

end Verif.Props
