import Verif.Proofs.PngRows

/-! The PNG reader: the contract, playing back, and images that are not interlaced. -/

namespace Verif
open Spec

variable {U F : Prop} {L S : List ℕ} {lib : Png} {fs : Fs} {s : Sys}

/-- Contexts of the PNG reader. -/
def IsPng : Ctx → ℕ → ℕ → Prop
  | .png x, _, _ => x.png = none → x.info = none
  | _, _, _ => False

theorem pngConvert_spoilt {buf : List (Option UInt8)} {channels todo i : ℕ} {img img' : List Fl}
    (h : pngConvert buf channels todo i img = some img') : Spoilt img img' (i + todo) := by
  induction todo generalizing i img with
  | zero => cases h; exact spoilt_refl _ _
  | succ n ih =>
    unfold pngConvert at h
    simp only [Option.bind_eq_bind, Option.bind_eq_some_iff] at h
    obtain ⟨_, _, img1, h1, h2⟩ := h
    have hsp := ih h2
    unfold wr at h1
    split at h1
    · cases h1
      refine ⟨by simpa using hsp.1, ?_⟩
      have := hsp.2
      rw [show i + (n + 1) = i + 1 + n by omega, this, List.drop_set_of_lt (by omega)]
    · cases h1

/-- The same context at the end of its life. -/
structure PngCtx.Ended (x y : PngCtx) : Prop extends x.Same y where
  eof : y.eof = true

/-- What reading comes to, in general. -/
theorem pngRead_act {x : PngCtx} {img : List Fl} {w h : ℕ} (hw : Within s.cfg w h) :
    Act True F ((Ctx.png x).blocks ++ L) S (pngRead s lib x img w h) (fun a L' S' => Spoilt img a.2.2.1 (w * h) ∧ (a.1 = true → a.2.1 = 0) ∧
      Code a.2.1 ∧ (a.2.2.2 = x ∨ x.Ended a.2.2.2) ∧ L' = (Ctx.png x).blocks ++ L ∧ S' = S) := by
  unfold pngRead
  refine Act.skip (Act.touch (by simp [Ctx.blocks])) ?_
  refine Act.ite (fun _ => Act.pure ⟨spoilt_refl _ _, by simp, code_ok, Or.inl rfl, rfl, rfl⟩) (fun _ => ?_)
  rcases Option.eq_none_or_eq_some x.png with hp | ⟨p, hp⟩
  · have h0 : need x.png = (M.ub : M ℕ) := by rw [hp]; rfl
    rw [h0]
    exact fun _ _ _ => Or.inl ⟨rfl, trivial⟩
  · refine Act.bind (Act.need (Q := fun a l s' => a = p ∧ l = (Ctx.png x).blocks ++ L ∧ s' = S) hp ⟨rfl, rfl, rfl⟩) ?_
    rintro _ _ S1 ⟨rfl, rfl, e1⟩
    subst S1
    refine Act.skip (Act.touch (by simp [Ctx.blocks, hp])) ?_
    refine Act.bind Act.malloc ?_
    rintro r L1 S1 ⟨hS1, ⟨rfl, rfl, hF⟩ | ⟨b, rfl, rfl⟩⟩ <;> subst S1
    · exact Act.pure ⟨spoilt_refl _ _, by simp, code_nomem, Or.inr ⟨⟨rfl, rfl, rfl, rfl, rfl, rfl, rfl, rfl, rfl⟩, rfl⟩, rfl, rfl⟩
    simp only
    refine Act.bind (Act.lift (Q := fun a l s' => (∀ buf y, a = .ret (buf, y) → x.Same y) ∧ l = b :: ((Ctx.png x).blocks ++ L) ∧ s' = S)
      (fun _ => trivial) (fun a ha => ⟨fun buf y e => ?_, rfl, rfl⟩)) ?_
    · rw [e] at ha
      exact pngPasses_same ha
    rintro r _ S1 ⟨hsame, rfl, e1⟩
    subst S1
    cases r with
    | exit =>
      refine Act.bind (Act.free (List.Perm.refl _)) ?_
      rintro _ _ _ ⟨rfl, rfl⟩
      exact Act.pure ⟨spoilt_refl _ _, by simp, code_inval, Or.inr ⟨⟨rfl, rfl, rfl, rfl, rfl, rfl, rfl, rfl, rfl⟩, rfl⟩, rfl, rfl⟩
    | ret r =>
      obtain ⟨buf, y⟩ := r
      have hy := hsame buf y rfl
      have hend : x.Ended { y with eof := true } :=
        ⟨⟨hy.block, hy.f, hy.png, hy.info, hy.width, hy.color, hy.depth, hy.interlaced, hy.numRows⟩, rfl⟩
      simp only
      cases lib.end' with
      | exit =>
        refine Act.bind (Act.free (List.Perm.refl _)) ?_
        rintro _ _ _ ⟨rfl, rfl⟩
        exact Act.pure ⟨spoilt_refl _ _, by simp, code_inval, Or.inr hend, rfl, rfl⟩
      | ret u =>
        simp only
        rw [hw.pixels]
        refine Act.bind (Act.lift (Q := fun a l s' => Spoilt img a (w * h) ∧ l = b :: ((Ctx.png x).blocks ++ L) ∧ s' = S)
          (fun _ => trivial) (fun a ha => ⟨by simpa using pngConvert_spoilt ha, rfl, rfl⟩)) ?_
        rintro img' _ _ ⟨hsp, rfl, rfl⟩
        refine Act.bind (Act.free (List.Perm.refl _)) ?_
        rintro _ _ _ ⟨rfl, rfl⟩
        exact Act.pure ⟨hsp, fun _ => rfl, code_ok, Or.inr hend, rfl, rfl⟩

theorem png_sound (s : Sys) (fs : Fs) (lib : Png) (F : Prop) : (pngReader s fs lib).Sound s.cfg (fun _ => True) True F IsPng where
  opens L S name := by
    refine Act.bind (pngOpen_act.weaken (fun _ => trivial) Iff.rfl) ?_
    rintro ⟨o, w, h, e⟩ L' S' (⟨h0, x, d, k, i, rfl, _, _, _, _, _, _, _, _, _, _, _, hx, rfl, rfl⟩ | ⟨h0, rfl, rfl, rfl, h1⟩)
    · exact Act.pure (Or.inl ⟨h0, _, rfl, (fun h => by rw [h] at hx; cases hx), rfl, rfl⟩)
    · refine Act.pure (Or.inr (Or.inl ⟨h0, ?_, rfl, rfl, rfl⟩))
      simp only at h1 ⊢
      rcases h1 with ⟨rfl, _⟩ | ⟨e', rfl, _⟩ | ⟨rfl, _⟩
      · exact code_nomem
      · exact code_neg e'
      · exact code_inval
  reads L S x img w h hx hw hl := by
    cases x with
    | png x =>
      refine Act.bind (pngRead_act hw) ?_
      rintro ⟨r, e, img', x'⟩ L' S' ⟨h1, h2, h3, h4, rfl, rfl⟩
      simp only at h4
      refine Act.pure ⟨h1, h2, h3, ?_, ?_, ?_⟩
      · rcases h4 with rfl | h4
        · exact hx
        · show x'.png = none → x'.info = none
          rw [h4.png, h4.info]; exact hx
      · rcases h4 with rfl | h4
        · rfl
        · simp only [Ctx.blocks, h4.block, h4.png, h4.info]
      · rcases h4 with rfl | h4
        · rfl
        · simp only [Ctx.files, h4.f]
    | _ => exact hx.elim
  seeks L S x k p w h hx hw := by
    cases x with
    | png x =>
      refine Act.bind (P := fun a L' S' => L' = (Ctx.png x).blocks ++ L ∧ S' = (Ctx.png x).files ++ S ∧ a.2.1 = RDEOK ∧
        ∃ e, a.2.2.2 = { x with eof := e }) ?_ ?_
      · unfold pngSeek
        refine Act.skip (Act.touch (by simp [Ctx.blocks])) ?_
        exact Act.pure ⟨rfl, rfl, rfl, _, rfl⟩
      · rintro ⟨r, e, calls, x'⟩ L' S' ⟨rfl, rfl, h1, e', h2⟩
        simp only at h1 h2
        subst h2
        refine Act.pure ⟨fun _ => h1, ?_, hx, rfl, rfl⟩
        simp only [h1]; exact code_ok
    | _ => exact hx.elim
  closes L S x w h hx := by
    cases x with
    | png x => exact pngClose_act hx (List.Perm.refl _) (List.Perm.refl _)
    | _ => exact hx.elim
  closeNull := rfl

/-! ## Images that are not interlaced -/

/-- A context before reading an image of this size, in a format the reader can deal with. -/
structure PngCtx.Ready (x : PngCtx) (w h : ℕ) : Prop where
  png : x.png.isSome
  depth : x.depth = 8
  color : x.color = 0 ∨ x.color = 2
  width : x.width = w
  interlaced : x.interlaced = false
  numRows : x.numRows = h
  row : x.row = 0
  pass : x.pass = 0

theorem Within.row {c : Cfg} {w h n : ℕ} (hw : Within c w h) (hn : n ≤ 3) : c.sz (w * n) = w * n ∧ c.sz (w * h * n) = w * h * n := by
  obtain ⟨h1, h2, _, h3⟩ := hw
  have e1 : w * n ≤ w * h * n := Nat.mul_le_mul_right _ (Nat.le_mul_of_pos_right _ h2)
  have e2 : w * h * n ≤ w * h * 4 := Nat.mul_le_mul_left _ (by omega)
  exact ⟨sz_eq (by omega), sz_eq (by omega)⟩

theorem pngRead_ready {x : PngCtx} {img : List Fl} {w h : ℕ} (hw : Within s.cfg w h) (hx : x.Ready w h) (heof : x.eof = false)
    (hl : w * h ≤ img.length) :
    Act False F ((Ctx.png x).blocks ++ L) S (pngRead s lib x img w h) (fun a L' S' => x.Ended a.2.2.2 ∧
      L' = (Ctx.png x).blocks ++ L ∧ S' = S ∧
      ((a.1 = false ∧ a.2.1 = RDENOMEM ∧ a.2.2.1 = img ∧ F) ∨
       (a.1 = false ∧ a.2.1 = RDEINVAL ∧ a.2.2.1 = img ∧ ((¬ ∃ rows, rows.length = h ∧ lib.Delivers x.state rows) ∨ lib.end' = .exit)) ∨
       (∃ (dots : List Dot) (rows : List (List UInt8)), a.1 = true ∧ a.2.1 = RDEOK ∧ a.2.2.1 = fill img 0 (dots.map Dot.sample) ∧
         dots.length = w * h ∧ (∀ d ∈ dots, d.isColour = decide (x.color = 2)) ∧ rows.flatten = (dots.map Dot.bytes).flatten ∧
         rows.length = h ∧ (∀ r ∈ rows, r.length = w * pngWays x.color) ∧ lib.Delivers x.state rows ∧ lib.end' = .ret ()))) := by
  unfold pngRead
  refine Act.skip (Act.touch (by simp [Ctx.blocks])) ?_
  rw [if_neg (by simp [heof])]
  obtain ⟨p, hp⟩ := Option.isSome_iff_exists.mp hx.png
  refine Act.bind (Act.need (Q := fun a l s' => a = p ∧ l = (Ctx.png x).blocks ++ L ∧ s' = S) hp ⟨rfl, rfl, rfl⟩) ?_
  rintro _ _ S1 ⟨rfl, rfl, e1⟩
  subst S1
  refine Act.skip (Act.touch (by simp [Ctx.blocks, hp])) ?_
  refine Act.bind Act.malloc ?_
  rintro r L1 S1 ⟨hS1, ⟨rfl, rfl, hF⟩ | ⟨b, rfl, rfl⟩⟩ <;> subst S1
  · exact Act.pure ⟨⟨⟨rfl, rfl, rfl, rfl, rfl, rfl, rfl, rfl, rfl⟩, rfl⟩, rfl, rfl, Or.inl ⟨rfl, rfl, rfl, hF⟩⟩
  have hways : (if x.color &&& maskColor ≠ 0 then 3 else 1) = pngWays x.color := rfl
  have h3 : pngWays x.color ≤ 3 := by unfold pngWays; split <;> omega
  simp only [hx.interlaced, Bool.false_eq_true, if_false, hways]
  rw [hw.pixels, (hw.row h3).1, (hw.row h3).2]
  have hrows := pngRows_eq (lib := lib) (todo := h) (x := x) hx.interlaced hx.color hx.depth (by rw [hx.row, hx.numRows]; omega) hx.pass (pre := [])
  simp only [List.map_nil, List.nil_append, List.length_nil, hx.width] at hrows
  rw [show h * (w * pngWays x.color) = w * h * pngWays x.color by ring] at hrows
  have hpass : ∀ {v}, pngRows lib (w * pngWays x.color) h 0 x (List.replicate (w * h * pngWays x.color) none) = some v →
      pngPasses lib (w * pngWays x.color) h 1 x (List.replicate (w * h * pngWays x.color) none) = some v := by
    intro v hv
    unfold pngPasses
    rw [hv]
    simp only [Option.bind_eq_bind, Option.bind_some]
    cases v <;> rfl
  rcases hrows with ⟨e1, e2⟩ | ⟨rows, x', e1, e2, e3, e4⟩
  · rw [hpass e1]
    refine Act.bind (Act.lift (Q := fun a l s' => a = .exit ∧ l = b :: ((Ctx.png x).blocks ++ L) ∧ s' = S) (by simp)
      (fun a ha => ⟨(Option.some.inj ha).symm, rfl, rfl⟩)) ?_
    rintro _ _ _ ⟨rfl, rfl, rfl⟩
    refine Act.bind (Act.free (List.Perm.refl _)) ?_
    rintro _ _ _ ⟨rfl, rfl⟩
    exact Act.pure ⟨⟨⟨rfl, rfl, rfl, rfl, rfl, rfl, rfl, hx.interlaced.symm, rfl⟩, rfl⟩, rfl, rfl, Or.inr (Or.inl ⟨rfl, rfl, rfl, Or.inl e2⟩)⟩
  · have hsame := pngPasses_same (hpass e1)
    have hend : x.Ended { x' with eof := true } :=
      ⟨⟨hsame.block, hsame.f, hsame.png, hsame.info, hsame.width, hsame.color, hsame.depth, hsame.interlaced, hsame.numRows⟩, rfl⟩
    rw [hpass e1]
    refine Act.bind (Act.lift (Q := fun a l s' => a = .ret (rows.flatten.map some, x') ∧ l = b :: ((Ctx.png x).blocks ++ L) ∧ s' = S) (by simp)
      (fun a ha => ⟨(Option.some.inj ha).symm, rfl, rfl⟩)) ?_
    rintro _ _ S1 ⟨rfl, rfl, e5⟩
    subst S1
    simp only
    cases hend' : lib.end' with
    | exit =>
      refine Act.bind (Act.free (List.Perm.refl _)) ?_
      rintro _ _ _ ⟨rfl, rfl⟩
      exact Act.pure ⟨hend, rfl, rfl, Or.inr (Or.inl ⟨rfl, rfl, rfl, Or.inr rfl⟩)⟩
    | ret u =>
      simp only
      have hlen : rows.flatten.length = w * h * pngWays x.color := by rw [flatten_length_eq e3, e2]; ring
      obtain ⟨dots, h1, h2, h3⟩ := dots_of hx.color hlen
      have hconv := pngConvert_eq hx.color h3 (pre := []) (i := 0) (by simp) (img := img) (by omega)
      simp only [List.nil_append, h2] at hconv
      rw [h1, hconv]
      refine Act.bind (Act.lift (Q := fun a l s' => a = fill img 0 (dots.map Dot.sample) ∧ l = b :: ((Ctx.png x).blocks ++ L) ∧ s' = S) (by simp)
        (fun a ha => ⟨(Option.some.inj ha).symm, rfl, rfl⟩)) ?_
      rintro _ _ _ ⟨rfl, rfl, rfl⟩
      refine Act.bind (Act.free (List.Perm.refl _)) ?_
      rintro _ _ _ ⟨rfl, rfl⟩
      exact Act.pure ⟨hend, rfl, rfl, Or.inr (Or.inr ⟨dots, rows, rfl, rfl, rfl, h2, h3, h1, e2, e3, e4, trivial⟩)⟩

theorem png_ready {i : PngInfo} (hi : i.Legal) (hn : i.interlaced = false) {x : PngCtx} (hp : x.png.isSome) (h1 : x.width = i.width)
    (h2 : (x.color, x.depth) = pngTransformed i (pngRequests i)) (h3 : x.interlaced = i.interlaced) (h4 : x.numRows = pngNumRows i)
    (h5 : x.pass = 0) (h6 : x.row = 0) : x.Ready i.width i.height := by
  rw [png_transformed hi, Prod.mk.injEq] at h2
  refine ⟨hp, h2.2, ?_, h1, h3.trans hn, ?_, h6, h5⟩
  · rw [h2.1]; split <;> simp
  · rw [h4, pngNumRows, hn]; simp

/-- A PNG context with `pic` still to come, or at the end. -/
def PngShows (lib : Png) (W H : ℕ) (dots : List Dot) (x : Ctx) (frames : List (List Fl)) : Prop :=
  ∃ y, x = .png y ∧ frames = (if y.eof then [] else [dots.map Dot.sample]) ∧ dots.length = W * H ∧
    (y.eof = false → y.Ready W H ∧ lib.end' = .ret () ∧ (∀ d ∈ dots, d.isColour = decide (y.color = 2)) ∧
      ∃ rows : List (List UInt8), rows.length = H ∧ (∀ r ∈ rows, r.length = W * pngWays y.color) ∧
        rows.flatten = (dots.map Dot.bytes).flatten ∧ lib.Delivers y.state rows)

theorem Dot.bytes_inj {a b : Dot} {as bs : List UInt8} (hk : a.isColour = b.isColour) (h : a.bytes ++ as = b.bytes ++ bs) : a = b ∧ as = bs := by
  cases a <;> cases b <;> simp_all [Dot.bytes, Dot.isColour]

theorem Dot.flatten_inj {k : Bool} {as bs : List Dot} (ha : ∀ d ∈ as, d.isColour = k) (hb : ∀ d ∈ bs, d.isColour = k)
    (h : (as.map Dot.bytes).flatten = (bs.map Dot.bytes).flatten) : as = bs := by
  have hne : ∀ d : Dot, d.bytes ≠ [] := by intro d; cases d <;> simp [Dot.bytes]
  induction as generalizing bs with
  | nil =>
    cases bs with
    | nil => rfl
    | cons b bs => simp [hne] at h
  | cons a as ih =>
    cases bs with
    | nil => simp [hne] at h
    | cons b bs =>
      simp only [List.map_cons, List.flatten_cons] at h
      obtain ⟨rfl, h1⟩ := Dot.bytes_inj ((ha a (by simp)).trans (hb b (by simp)).symm) h
      rw [ih (fun d hd => ha d (List.mem_cons_of_mem _ hd)) (fun d hd => hb d (List.mem_cons_of_mem _ hd)) h1]

theorem png_player {W H : ℕ} {dots : List Dot} (hw : Within s.cfg W H) : Player (pngReader s fs lib) W H IsPng (PngShows lib W H dots) where
  length := by
    rintro x f fs' ⟨y, rfl, hf, hl, _⟩
    cases he : y.eof with
    | true => rw [he] at hf; cases hf
    | false =>
      rw [he] at hf
      cases hf
      rw [List.length_map, hl]
  read := by
    rintro x frames img L S ⟨y, rfl, hf, hd, hy⟩ hok hl
    cases he : y.eof with
    | true =>
      rw [he] at hf
      simp only [if_true] at hf
      subst hf
      show Act _ _ _ _ (pngRead s lib y img W H >>= _) _
      have h1 : Act False False ((Ctx.png y).blocks ++ L) ((Ctx.png y).files ++ S) (pngRead s lib y img W H)
          (fun a L' S' => a = (false, RDEOK, img, y) ∧ L' = (Ctx.png y).blocks ++ L ∧ S' = (Ctx.png y).files ++ S) := by
        unfold pngRead
        refine Act.skip (Act.touch (by simp [Ctx.blocks])) ?_
        rw [if_pos he]
        exact Act.pure ⟨rfl, rfl, rfl⟩
      refine Act.bind h1 ?_
      rintro _ _ _ ⟨rfl, rfl, rfl⟩
      exact Act.pure ⟨.png y, rfl, ⟨y, rfl, by simp [he], hd, by simp [he]⟩, hok, rfl, rfl⟩
    | false =>
      obtain ⟨h1, h2, h3, rows, h4, h5, h6, h7⟩ := hy he
      rw [he] at hf
      simp only [Bool.false_eq_true, if_false] at hf
      subst hf
      refine Act.bind (pngRead_ready hw h1 he hl.ge) ?_
      rintro ⟨r, e, img', x'⟩ _ _ ⟨hend, rfl, rfl, ⟨_, _, _, h⟩ | ⟨_, _, _, h | h⟩ | ⟨dots', rows', rfl, rfl, rfl, g1, g2, g3, g4, g5, g6, _⟩⟩
      · exact h.elim
      · exact absurd ⟨rows, h4, h7⟩ h
      · rw [h2] at h; cases h
      · have e1 : rows' = rows := g6.unique h7 (g4.trans h4.symm) g5 h5
        subst e1
        have e2 : dots' = dots := Dot.flatten_inj g2 h3 (g3.symm.trans h6)
        subst e2
        simp only at hend ⊢
        refine Act.pure ⟨.png x', ?_, ⟨x', rfl, by simp [hend.eof], hd, by simp [hend.eof]⟩, ?_, ?_, ?_⟩
        · rw [fill_zero (l := img) (by rw [List.length_map, hd, hl])]; rfl
        · show x'.png = none → x'.info = none
          rw [hend.png, hend.info]; exact hok
        · simp only [Ctx.blocks, hend.block, hend.png, hend.info]
        · simp only [Ctx.files, hend.f]
  seek := by
    rintro x frames L S k ⟨y, rfl, hf, hd, hy⟩ hok
    have h1 : Act False False ((Ctx.png y).blocks ++ L) ((Ctx.png y).files ++ S) (pngSeek y k true)
        (fun a L' S' => a = ((singleSeek y.eof k true).1, RDEOK, (singleSeek y.eof k true).2.1, { y with eof := (singleSeek y.eof k true).2.2 }) ∧
          L' = (Ctx.png y).blocks ++ L ∧ S' = (Ctx.png y).files ++ S) := by
      unfold pngSeek
      refine Act.skip (Act.touch (by simp [Ctx.blocks])) ?_
      exact Act.pure ⟨rfl, rfl, rfl⟩
    refine Act.bind h1 ?_
    rintro _ _ _ ⟨rfl, rfl, rfl⟩
    obtain ⟨e1, e2⟩ := singleSeek_eq (eof := y.eof) (k := k) (dots.map Dot.sample)
    subst hf
    rw [e1, e2]
    refine Act.pure ⟨_, rfl, ⟨_, rfl, rfl, hd, ?_⟩, hok, rfl, rfl⟩
    intro h
    simp only [Bool.or_eq_false_iff] at h
    obtain ⟨h1, h2⟩ := hy h.1
    exact ⟨⟨h1.png, h1.depth, h1.color, h1.width, h1.interlaced, h1.numRows, h1.row, h1.pass⟩, h2⟩

/-- Opening a file libpng can deal with. -/
theorem png_open {name d : List UInt8} {k : Kind} {i : PngInfo} {st : ℕ} (hh : fs.Holds name (d, k)) (hs : lib.startup d = some (i, st))
    (L S : List ℕ) : Act False False L S ((pngReader s fs lib).open' name) (fun a _ _ => ∃ y : PngCtx, a = (some (.png y), i.width, i.height, RDEOK) ∧
      y.state = st ∧ y.width = i.width ∧ (y.color, y.depth) = pngTransformed i (pngRequests i) ∧ y.interlaced = i.interlaced ∧
      y.numRows = pngNumRows i ∧ y.pass = 0 ∧ y.row = 0 ∧ y.eof = false ∧ y.png.isSome) := by
  refine Act.bind pngOpen_act ?_
  rintro ⟨o, W', H', e⟩ L' S' (⟨h0, x, d', k', i', rfl, h1, h2, h3, h4, h5, h6, h7, h8, h9, h10, h11, h12, rfl, rfl⟩ |
    ⟨_, _, _, _, ⟨_, h⟩ | ⟨_, _, hn, h⟩ | ⟨_, d', k', h1, h2⟩⟩)
  · cases hh.unique h1
    rw [hs] at h2
    simp only [Option.some.injEq, Prod.mk.injEq] at h2
    obtain ⟨rfl, rfl⟩ := h2
    simp only at h0 h3 h4
    subst h0 h3 h4
    exact Act.pure ⟨x, rfl, rfl, h5, h6, h7, h8, h9, h10, h11, h12⟩
  · exact h.elim
  · exact (hh.opens hn h).elim
  · cases hh.unique h1
    rw [hs] at h2; cases h2

/-- Opening a file that is not a PNG, or libpng does not like. -/
theorem png_refuses {name d : List UInt8} {k : Kind} (hh : fs.Holds name (d, k)) (hs : lib.startup d = none)
    (L S : List ℕ) : Act False False L S ((pngReader s fs lib).open' name) (fun a _ _ => a.1 = none ∧ a.2.2.2 = RDEINVAL) := by
  refine Act.bind pngOpen_act ?_
  rintro ⟨o, W', H', e⟩ L' S' (⟨h0, x, d', k', i', rfl, h1, h2, _⟩ | ⟨_, rfl, _, _, ⟨_, h⟩ | ⟨_, _, hn, h⟩ | ⟨rfl, d', k', h1, h2⟩⟩)
  · cases hh.unique h1
    rw [hs] at h2; cases h2
  · exact h.elim
  · exact (hh.opens hn h).elim
  · exact Act.pure ⟨rfl, rfl⟩

end Verif
