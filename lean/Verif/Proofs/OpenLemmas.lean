import Verif.Proofs.ApiLemmas

/-! Helpers for the properties of opening images. -/

namespace Verif

open Spec

variable {s : Sys} {io : Io} {fn ft : Option (List UInt8)} {hasW hasH wantBuf : Bool}

theorem outcome_of_act {w w' : World} {o : Opened} {m : M Opened} (hm : ∀ F L S, Act True F L S m (OpenPost s F wantBuf L S)) (hw : w.WF)
    (h : m w = some (o, w')) : OpenOutcome s wantBuf w o w' := by
  rcases hm True [] [] w w (Own.init hw (fun _ _ => trivial)) with ⟨h1, _⟩ | ⟨a, w1, L', S', h1, ow, h2⟩
  · rw [h] at h1; cases h1
  · rw [h] at h1
    cases h1
    rcases h2 with ⟨r, Ok, i, x, hr, ho, hp, rfl⟩ | ⟨h1, h2, h3, rfl, rfl⟩
    · have he := ho.error
      refine ⟨?_, fun h => absurd he h, fun _ => ⟨ho.within.1, ho.within.2.1, ho.within.2.2.1⟩, ?_, ?_, ?_⟩
      · rw [ho.image, he]; simp [RDEOK]
      · rintro _ rfl
        obtain ⟨b, hb⟩ := ho.buffer
        have hm : b ∈ L' := hp.mem_iff.mpr (by rw [hb]; simp)
        exact ⟨_, hb, by simp, (ow.new b hm).1, (ow.live b).mpr (Or.inr hm)⟩
      · rintro rfl
        have := ho.buf
        simpa using this
      · intro _ ops seen i' b w2 hs
        rw [ho.image] at hs
        have hl : ∀ buf, o.buf = some buf → buf.data.length = o.width * o.height := by
          intro buf hbuf
          have := ho.buf
          split at this
          · obtain ⟨b, hb⟩ := this
            rw [hb] at hbuf; cases hbuf; simp
          · rw [hbuf] at this; cases this
        rcases session_act hr ops ho.handle hl w w' (ow.perm hp (List.Perm.refl _)) with ⟨h1, _⟩ | ⟨a, w3, L3, S3, h1, ow3, i3, x3, e3, hi3, _, rfl, rfl⟩
        · rw [hs] at h1; cases h1
        · rw [hs] at h1
          cases h1
          simp only at e3 ow3
          subst e3
          rcases release_act hr hi3 w w2 ow3 with ⟨_, h2⟩ | ⟨_, w4, _, _, h2, ow4, rfl, rfl⟩
          · exact h2.elim
          · exact ⟨w4, h2, ow4.same⟩
    · refine ⟨?_, fun _ => ?_, fun h => absurd h h2, fun h => absurd h h2, fun _ => by rw [h1]; rfl, fun h => absurd h h2⟩
      · rw [h1]; simp only [Failed, true_iff]; exact h2
      · rw [h1]; exact ⟨rfl, rfl, rfl, ow.same⟩

theorem tolower_eq (b : UInt8) : tolower b = lower b := by
  have h1 : (ch 'A' : UInt8) = 65 := by decide
  have h2 : (ch 'Z' : UInt8) = 90 := by decide
  unfold tolower lower
  rw [h1, h2]
  simp only [Bool.and_eq_true, decide_eq_true_eq, UInt8.le_iff_toNat_le]
  rfl

theorem plainly_cons {c : Cfg} {b : UInt8} {l : List UInt8} (h : Plainly c (b :: l)) : ctypeOk c b = true ∧ Plainly c l := by
  refine ⟨?_, h.imp_right (fun h x hx => h x (List.mem_cons_of_mem _ hx))⟩
  unfold ctypeOk
  rcases h with h | h
  · simp [h]
  · have hb := h b (by simp)
    have : ¬ (128 : UInt8) ≤ b := by
      rw [UInt8.le_iff_toNat_le]
      simpa using hb
    simp [this]

theorem strieq_spec {c : Cfg} {a b : List UInt8} (ha : Plainly c a) (hb : Plainly c b) :
    ∃ r, strieq c a b = some r ∧ (r = true ↔ SameText a b) := by
  induction a generalizing b with
  | nil =>
    cases b with
    | nil => exact ⟨true, rfl, by simp [SameText]⟩
    | cons b l => exact ⟨false, rfl, by simp [SameText]⟩
  | cons x a ih =>
    cases b with
    | nil => exact ⟨false, rfl, by simp [SameText]⟩
    | cons y b =>
      obtain ⟨h1, h2⟩ := plainly_cons ha
      obtain ⟨h3, h4⟩ := plainly_cons hb
      unfold strieq
      rw [h1, h3]
      simp only [Bool.and_true, if_true]
      by_cases h : tolower x = tolower y
      · rw [if_neg (by simpa using h)]
        obtain ⟨r, h5, h6⟩ := ih h2 h4
        refine ⟨r, h5, h6.trans ?_⟩
        simp only [SameText, List.map_cons, List.cons.injEq, ← tolower_eq, h, true_and]
      · rw [if_pos (by simpa using h)]
        refine ⟨false, rfl, ?_⟩
        simp only [SameText, List.map_cons, List.cons.injEq, ← tolower_eq, h, false_and, Bool.false_eq_true]

theorem ascii (c : Cfg) (t : String) (h : ∀ b ∈ cs t, b.toNat < 128) : Plainly c (cs t) := Or.inr h

theorem takeWhile_split (l : List UInt8) (c : UInt8) (stem ext : List UInt8) (h : l = stem ++ c :: ext) (hn : c ∉ ext) :
    (l.reverse.takeWhile (fun b => b != c)).reverse = ext := by
  subst h
  rw [List.reverse_append, List.reverse_cons, List.append_assoc, List.takeWhile_append_of_pos]
  · simp
  · intro a ha
    rw [List.mem_reverse] at ha
    simp only [bne_iff_ne, ne_eq]
    rintro rfl
    exact hn ha

theorem extension_spec {name ext : List UInt8} (h : Extension name ft ext) : extension name ft = ext := by
  unfold extension
  cases h with
  | mime t ext hm =>
    simp only [mimeTypes, List.mem_cons, Prod.mk.injEq, List.not_mem_nil, or_false] at hm
    rcases hm with ⟨rfl, rfl⟩ | ⟨rfl, rfl⟩ | ⟨rfl, rfl⟩ | ⟨rfl, rfl⟩ | ⟨rfl, rfl⟩ <;> (simp only; decide)
  | unknown t h1 h2 =>
    simp only [if_pos h1]
    unfold extFromMimetype
    have hx : ∀ x, x ∈ mimeTypes → t ≠ x.1 := fun x hx ht => h2 x.2 (by rw [ht]; exact hx)
    rw [if_neg (hx (cs "image/jpeg", cs "jpg") (by decide)), if_neg (hx (cs "image/png", cs "png") (by decide)),
      if_neg (hx (cs "video/yuv4mpeg", cs "y4m") (by decide)), if_neg (hx (cs "image/x-portable-graymap", cs "pgm") (by decide)),
      if_neg (hx (cs "image/x-portable-floatmap", cs "pfm") (by decide))]
  | given t h1 => simp only [if_neg h1]
  | suffix stem ext h1 h2 =>
    simp only
    unfold fileExt
    rw [if_pos (by rw [h1]; simp)]
    exact takeWhile_split _ _ stem ext h1 h2
  | bare h1 =>
    simp only
    unfold fileExt
    rw [if_neg h1]

/-- Every combination of name and type has an extension. -/
theorem extension_total (name : List UInt8) (ft : Option (List UInt8)) : ∃ ext, Extension name ft ext := by
  cases ft with
  | none =>
    by_cases h : ch '.' ∈ name
    · have hr : ch '.' ∈ name.reverse := List.mem_reverse.mpr h
      obtain ⟨a, b, hab⟩ := List.append_of_mem h
      have : ∃ stem ext, name = stem ++ ch '.' :: ext ∧ ch '.' ∉ ext := by
        clear hab
        induction name with
        | nil => cases h
        | cons x name ih =>
          by_cases h' : ch '.' ∈ name
          · obtain ⟨stem, ext, h1, h2⟩ := ih h' (List.mem_reverse.mpr h')
            exact ⟨x :: stem, ext, by rw [h1]; rfl, h2⟩
          · rcases List.mem_cons.mp h with rfl | h''
            · exact ⟨[], name, rfl, h'⟩
            · exact absurd h'' h'
      obtain ⟨stem, ext, h1, h2⟩ := this
      exact ⟨ext, .suffix stem ext h1 h2⟩
    · exact ⟨[], .bare h⟩
  | some t =>
    by_cases h : ch '/' ∈ t
    · by_cases h2 : ∃ ext, (t, ext) ∈ mimeTypes
      · obtain ⟨ext, h2⟩ := h2; exact ⟨ext, .mime t ext h2⟩
      · exact ⟨[], .unknown t h (fun ext he => h2 ⟨ext, he⟩)⟩
    · exact ⟨t, .given t h⟩

theorem findReader_first {rs : List Reader} {ext : List UInt8} (hd : ∀ r ∈ rs, (r.supportsExt ext).isSome) :
    (∀ r, First (fun r => r.supportsExt ext = some true) rs r → findReader rs ext = some (some r)) ∧
    ((∀ r ∈ rs, r.supportsExt ext ≠ some true) → findReader rs ext = some none) := by
  induction rs with
  | nil =>
    refine ⟨?_, fun _ => rfl⟩
    rintro r ⟨l1, l2, h, _⟩
    simp at h
  | cons q rs ih =>
    obtain ⟨i1, i2⟩ := ih (fun r hr => hd r (List.mem_cons_of_mem _ hr))
    obtain ⟨b, hb⟩ := Option.isSome_iff_exists.mp (hd q (by simp))
    unfold findReader
    rw [hb]
    simp only [Option.bind_eq_bind, Option.bind_some]
    constructor
    · rintro r ⟨l1, l2, h1, h2, h3⟩
      cases l1 with
      | nil =>
        simp only [List.nil_append, List.cons.injEq] at h1
        obtain ⟨rfl, rfl⟩ := h1
        rw [hb] at h2
        cases h2
        rfl
      | cons q' l1 =>
        simp only [List.cons_append, List.cons.injEq] at h1
        obtain ⟨rfl, rfl⟩ := h1
        have : ¬ q.supportsExt ext = some true := h3 q (by simp)
        rw [hb] at this
        have hbf : b = false := by simpa using this
        subst hbf
        exact i1 r ⟨l1, l2, rfl, h2, fun y hy => h3 y (List.mem_cons_of_mem _ hy)⟩
    · intro h
      have := h q (by simp)
      rw [hb] at this
      have hbf : b = false := by simpa using this
      subst hbf
      exact i2 (fun r hr => h r (List.mem_cons_of_mem _ hr))

theorem openImage_reader {r : Reader} {name : List UInt8} {w w' : World} {o : Opened} {i : RDImage}
    (h : openImage s (some r) name wantBuf w = some (o, w')) (hi : o.image = some i) : i.reader = some r := by
  unfold openImage at h
  obtain ⟨mb, w1, h1, h2⟩ := M.bind_eq_some.mp h
  have fail : ∀ {j e} {w1 w2 : World}, openFail j e w1 = some (o, w2) → False := by
    intro j e w1 w2 hf
    unfold openFail at hf
    obtain ⟨_, w3, _, h4⟩ := M.bind_eq_some.mp hf
    have h4 := Option.some.inj h4
    rw [Prod.mk.injEq] at h4
    rw [← h4.1] at hi
    cases hi
  cases mb with
  | none => exact (fail h2).elim
  | some b =>
    simp only at h2
    obtain ⟨⟨ctx, W, H, e⟩, w2, h3, h4⟩ := M.bind_eq_some.mp h2
    simp only at h4
    split at h4
    · exact (fail h4).elim
    · split at h4
      · exact (fail h4).elim
      · split at h4
        · obtain ⟨mb2, w3, h5, h6⟩ := M.bind_eq_some.mp h4
          cases mb2 with
          | none => exact (fail h6).elim
          | some b2 =>
            have h6 := Option.some.inj h6
            rw [Prod.mk.injEq] at h6
            rw [← h6.1] at hi
            cases hi
            rfl
        · have h6 := Option.some.inj h4
          rw [Prod.mk.injEq] at h6
          rw [← h6.1] at hi
          cases hi
          rfl

theorem refuses {name : List UInt8} : Refuses (openImage s none name wantBuf) := by
  intro w hw
  rcases openUnsupported_act (U := False) (F := ∃ j, w.sched j = false) (s := s) (name := name) (wantBuf := wantBuf) w w
    (Own.init hw (fun j hj => ⟨j, hj⟩)) with ⟨_, h⟩ | ⟨o, w', _, _, h1, _, _, _, _, h2⟩
  · exact h.elim
  · exact ⟨o, w', h1, h2⟩

theorem findName_first {c : Cfg} {names : List (List UInt8)} {name : List UInt8} (hn : Plainly c name) (hs : ∀ n ∈ names, Plainly c n) (k : ℕ) :
    (∀ l1 n l2, names = l1 ++ n :: l2 → SameText n name → (∀ y ∈ l1, ¬ SameText y name) → findName c names name k = some (some (k + l1.length))) ∧
    ((∀ n ∈ names, ¬ SameText n name) → findName c names name k = some none) := by
  induction names generalizing k with
  | nil =>
    refine ⟨?_, fun _ => rfl⟩
    intro l1 n l2 h
    simp at h
  | cons q names ih =>
    obtain ⟨i1, i2⟩ := ih (fun r hr => hs r (List.mem_cons_of_mem _ hr)) (k + 1)
    obtain ⟨b, hb, hb'⟩ := strieq_spec (hs q (by simp)) hn
    unfold findName
    rw [hb]
    simp only [Option.bind_eq_bind, Option.bind_some]
    constructor
    · rintro l1 n l2 h1 h2 h3
      cases l1 with
      | nil =>
        simp only [List.nil_append, List.cons.injEq] at h1
        obtain ⟨rfl, rfl⟩ := h1
        rw [hb'.mpr h2]
        rfl
      | cons q' l1 =>
        simp only [List.cons_append, List.cons.injEq] at h1
        obtain ⟨rfl, rfl⟩ := h1
        have hbf : b = false := by
          rw [← Bool.not_eq_true, hb']
          exact h3 q (by simp)
        subst hbf
        have := i1 l1 n l2 rfl h2 (fun y hy => h3 y (List.mem_cons_of_mem _ hy))
        rw [if_neg (by simp), this, List.length_cons]
        congr 2
        omega
    · intro h
      have hbf : b = false := by
        rw [← Bool.not_eq_true, hb']
        exact h q (by simp)
      subst hbf
      exact i2 (fun r hr => h r (List.mem_cons_of_mem _ hr))

theorem named_fst : (named s io).map Prod.fst = listImageReaders io := by
  unfold named listImageReaders
  simp only [List.map_append]
  congr 1
  · congr 1
    · congr 1
      · congr 1
        · congr 1
          · congr 1
            · split <;> rfl
            · split <;> rfl
          · split <;> rfl
        · cases io.libjpeg <;> rfl
      · cases io.libpng <;> rfl
    · cases io.ffmpeg <;> rfl
  · cases io.magickwand <;> rfl

theorem named_snd : (named s io).map Prod.snd = imageReaders s io := by
  unfold named imageReaders
  simp only [List.map_append]
  congr 1
  · congr 1
    · congr 1
      · congr 1
        · congr 1
          · congr 1
            · split <;> rfl
            · split <;> rfl
          · split <;> rfl
        · cases io.libjpeg <;> rfl
      · cases io.libpng <;> rfl
    · cases io.ffmpeg <;> rfl
  · cases io.magickwand <;> rfl

theorem names_ascii (c : Cfg) : ∀ n ∈ listImageReaders io, Plainly c n := by
  intro n hn
  unfold listImageReaders at hn
  simp only [List.mem_append, Option.mem_toList, Option.map_eq_some_iff] at hn
  rcases hn with (((((hn | hn) | hn) | ⟨_, _, rfl⟩) | ⟨_, _, rfl⟩) | ⟨_, _, rfl⟩) | ⟨_, _, rfl⟩
  · split at hn
    · cases hn
    · rw [List.mem_singleton.mp hn]; exact ascii c _ (by decide)
  · split at hn
    · cases hn
    · rw [List.mem_singleton.mp hn]; exact ascii c _ (by decide)
  · split at hn
    · cases hn
    · rw [List.mem_singleton.mp hn]; exact ascii c _ (by decide)
  all_goals exact ascii c _ (by decide)

end Verif
