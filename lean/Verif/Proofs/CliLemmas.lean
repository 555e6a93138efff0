import Verif.Proofs.Runs
import Verif.Proofs.SeekAny
import Verif.Proofs.CliOptions
import Verif.Proofs.Loop
import Verif.Props.Results

/-! Running the command on an open image. -/

namespace Verif

open Spec

variable {s : Sys} {io : Io} {v : CliEnv} {r : Reader} {Ok : Ctx → ℕ → ℕ → Prop} {U F : Prop} {L S : List ℕ} {W H : ℕ} {i : RDImage} {x : Ctx}
  {m : Option Method} {p : Option Params} {ev : List (Call × Obs)} {a : Analysis}

/-- Errors there is a text for: 0 to 7 and negated errnos. -/
def Printable (c : Cfg) (e : ℤ) : Prop := -(c.intMax : ℤ) ≤ e ∧ e ≤ 7

theorem printable_str {c : Cfg} {e : ℤ} (h : Printable c e) (st : ℤ → String) : ∃ t, resdetErrorStr c st e = some (some t) := by
  unfold resdetErrorStr
  by_cases h1 : e < 0
  · rw [if_pos h1, if_neg (by have := h.1; omega)]
    exact ⟨_, rfl⟩
  · rw [if_neg h1, if_neg (by have := h.2; have k : resdetGetMaxError = 7 := (by decide); omega)]
    have h2 : e.toNat < 8 := by have := h.2; omega
    generalize e.toNat = n at h2
    interval_cases n <;> exact ⟨_, rfl⟩

theorem freeBuf_act {α : Type} {V : Prop} {b : Option (Buf α)} {L1 : List ℕ} (h : L1.Perm ((b.map Buf.id).toList ++ L)) :
    Act V F L1 S (freeBuf b) (fun _ L' S' => L'.Perm L ∧ S' = S) := by
  cases b with
  | none => exact Act.pure ⟨h, rfl⟩
  | some b => exact Act.mono (Act.free h) (fun _ _ _ h => ⟨h.1 ▸ List.Perm.refl _, h.2⟩)

/-- What is released at the end. -/
theorem cliEnd_act {vb : ℤ} {block : ℕ} {oa : Option Analysis} {oi : Option RDImage} {ob : Option (Buf Fl)} {rw rh : Option (Buf Res)}
    {counts : Option (ℕ × ℕ)} {e : RDError} {ret : Bool} {shown : Shown} {I : List ℕ} {L1 S1 : List ℕ}
    (hclose : ∀ L2, Act U F (I ++ L2) S1 (closeImage oi) (fun _ L' S' => L' = L2 ∧ S' = S))
    (hp : L1.Perm ((oa.map Analysis.blocks).getD [] ++ (I ++ ((ob.map Buf.id).toList ++ (block :: ((rw.map Buf.id).toList ++ ((rh.map Buf.id).toList ++ L)))))))
    (he : e ≠ 0 → Printable s.cfg e ∨ U) (hc : e = 0 → ret = false → vb = 0 → ∃ n, counts = some n) :
    Act U F L1 S1 (cliEnd s v vb block oa oi ob rw rh counts e ret shown) (fun ex L' S' => L'.Perm L ∧ S' = S ∧ ex.shown = shown ∧
      ((e ≠ 0 ∧ ex.code = 1) ∨ (e = 0 ∧ ret = true ∧ ex.code = 1) ∨
        (e = 0 ∧ ret = false ∧ vb = 0 ∧ ∃ cw ch, counts = some (cw, ch) ∧ ex.code = if cw = 1 ∧ ch = 1 then 1 else 0) ∨
        (e = 0 ∧ ret = false ∧ vb ≠ 0 ∧ ex.code = 0))) := by
  unfold cliEnd
  refine Act.of_perm ?_ hp (List.Perm.refl _)
  refine Act.bind (P := fun _ L' S' => L' = I ++ ((ob.map Buf.id).toList ++ (block :: ((rw.map Buf.id).toList ++ ((rh.map Buf.id).toList ++ L)))) ∧ S' = S1) ?_ ?_
  · cases oa with
    | none => exact Act.pure ⟨rfl, rfl⟩
    | some a => exact Act.mono (Act.ofTri (destroyAnalysis_tri (List.Perm.refl _))) (fun _ _ _ h => ⟨h.2, h.1⟩)
  rintro _ _ _ ⟨rfl, rfl⟩
  refine Act.bind (hclose _) ?_
  rintro _ _ _ ⟨rfl, rfl⟩
  refine Act.bind (freeBuf_act (List.Perm.refl _)) ?_
  rintro _ L2 _ ⟨h2, rfl⟩
  refine Act.bind (Act.free h2) ?_
  rintro _ _ _ ⟨rfl, rfl⟩
  refine Act.bind (freeBuf_act (List.Perm.refl _)) ?_
  rintro _ L3 _ ⟨h3, rfl⟩
  refine Act.bind (freeBuf_act h3) ?_
  rintro _ L4 S4 ⟨h4, e4⟩
  subst S4
  by_cases h0 : e ≠ 0
  · rw [if_pos h0]
    rcases he h0 with h5 | hU
    · obtain ⟨t, ht⟩ := printable_str h5 v.strerror
      refine Act.bind (Act.need (Q := fun a l s' => a = some t ∧ l = L4 ∧ s' = _) ht ⟨rfl, rfl, rfl⟩) ?_
      rintro _ _ _ ⟨rfl, e5, rfl⟩
      subst e5
      refine Act.bind (Act.need (Q := fun a l s' => l = _ ∧ s' = _) rfl ⟨rfl, rfl⟩) ?_
      rintro _ _ _ ⟨rfl, rfl⟩
      exact Act.pure ⟨h4, rfl, rfl, Or.inl ⟨h0, rfl⟩⟩
    · cases ht : resdetErrorStr s.cfg v.strerror e with
      | none => exact fun base w _ => Or.inl ⟨rfl, hU⟩
      | some t =>
        cases t with
        | none => exact fun base w _ => Or.inl ⟨rfl, hU⟩
        | some t => exact Act.pure ⟨h4, rfl, rfl, Or.inl ⟨h0, rfl⟩⟩
  · rw [if_neg h0]
    have h0 : e = 0 := not_not.mp h0
    cases ret with
    | true => exact Act.pure ⟨h4, rfl, rfl, Or.inr (Or.inl ⟨h0, rfl, rfl⟩)⟩
    | false =>
      rw [if_neg (by decide)]
      by_cases hv : vb = 0
      · rw [if_pos hv]
        obtain ⟨⟨cw, ch⟩, hn⟩ := hc h0 rfl hv
        refine Act.bind (Act.need (Q := fun a l s' => a = (cw, ch) ∧ l = L4 ∧ s' = _) hn ⟨rfl, rfl, rfl⟩) ?_
        rintro _ _ _ ⟨rfl, rfl, rfl⟩
        exact Act.pure ⟨h4, rfl, rfl, Or.inr (Or.inr (Or.inl ⟨h0, rfl, hv, cw, ch, hn, rfl⟩))⟩
      · rw [if_neg hv]
        exact Act.pure ⟨h4, rfl, rfl, Or.inr (Or.inr (Or.inr ⟨h0, rfl, hv, rfl⟩))⟩

theorem closeHandle_act (hr : r.Sound s.cfg (fun _ => True) True F Ok) (hi : Handle s r Ok W H i x) (L2 : List ℕ) :
    Act U F ((i.block :: x.blocks) ++ L2) (x.files ++ S) (closeImage (some i)) (fun _ L' S' => L' = L2 ∧ S' = S) :=
  closeImage_act hr hi.reader hi.ctx hi.ok (List.Perm.refl _) (List.Perm.refl _)

/-- What the frame loop of the command leaves. -/
def CliPost (s : Sys) (r : Reader) (Ok : Ctx → ℕ → ℕ → Prop) (m : Option Method) (p : Option Params) (W H : ℕ) (L0 L S : List ℕ) (a : Analysis)
    (K : RDError → ℕ → List (Call × Obs) → Prop) (v : RDError × ℕ × RDImage × Buf Fl × Analysis) (L' S' : List ℕ) : Prop :=
  ∃ ev x', K v.1 v.2.1 ev ∧ InLoop s m p W H L0 ev v.2.2.2.2 ∧ v.2.2.2.2.blocks = a.blocks ∧ Handle s r Ok W H v.2.2.1 x' ∧
    L' = held v.2.2.2.1.id v.2.2.1 x' L ∧ S' = x'.files ++ S

/-- Outcomes of the command once the image is open. -/
inductive CliDone (s : Sys) (F : Prop) (K : RDError → ℕ → List (Call × Obs) → Prop) (w h : ℕ) (vb : ℤ) (m : Option Method)
    (p : Option Params) : Exit → Prop where
  | create (e : RDError) (L L' : List ℕ) : Created s F L m w h p (none, e) L' → CliDone s F K w h vb m p ⟨1, .nothing⟩
  | empty (ev : List (Call × Obs)) (a : Analysis) : Reach s m w h p ev a → K RDEOK 1 ev → CliDone s F K w h vb m p ⟨1, .nothing⟩
  | stopped (ev : List (Call × Obs)) (a : Analysis) (e : RDError) (ct : ℕ) : Reach s m w h p ev a → K e ct ev → e ≠ RDEOK →
      CliDone s F K w h vb m p ⟨1, .nothing⟩
  | results (ev : List (Call × Obs)) (a : Analysis) (ct : ℕ) (c : Call) (e : RDError) (o1 : Option (List Res)) (cw : ℕ)
      (o2 : Option (List Res)) (ch : ℕ) :
      Reach s m w h p ev a → K RDEOK ct ev → ct ≠ 1 → Legal a c → c.op = .results Ptrs.all →
      step s a c = some (.results e o1 cw o2 ch, a) → e ≠ RDEOK → (e = RDENOMEM → F) → CliDone s F K w h vb m p ⟨1, .nothing⟩
  | ok (ev : List (Call × Obs)) (a : Analysis) (ct : ℕ) (l1 : List Res) (l2 : List Res) (shown : Shown) :
      K RDEOK ct ev → ct ≠ 1 → Returned s m w h p ev a (some l1) l1.length (some l2) l2.length →
      cliShow s.cfg vb l1 l2 l1.length l2.length = some shown →
      CliDone s F K w h vb m p ⟨if vb = 0 ∧ l1.length = 1 ∧ l2.length = 1 then 1 else 0, shown⟩

theorem readAll_eq (l : List Res) {n : ℕ} (h : n ≤ l.length) : readAll l n = some (l.take n) := by
  induction n with
  | zero => rfl
  | succ n ih =>
    unfold readAll
    rw [ih (by omega)]
    have : rd l n = some l[n] := by
      unfold rd
      exact List.getElem?_eq_getElem (by omega)
    simp only [this, Option.bind_eq_bind, Option.bind_some, Option.pure_def]
    rw [List.take_succ_eq_append_getElem (by omega)]

theorem cliShow_ok {c : Cfg} {vb : ℤ} {l1 l2 : List Res} (h1 : l1.length ≤ c.sizeMax) (h2 : l2.length ≤ c.sizeMax)
    {i1 i2 : List Res} {e1 e2 : Res} (hl1 : l1 = i1 ++ [e1]) (hl2 : l2 = i2 ++ [e2]) :
    ∃ out, cliShow c vb l1 l2 l1.length l2.length = some out ∧ Prints vb e1.index e2.index l1 l2 out := by
  have k1 : 0 < l1.length := by rw [hl1]; simp
  have k2 : 0 < l2.length := by rw [hl2]; simp
  obtain ⟨a, t1, ha⟩ := List.exists_cons_of_length_pos k1
  obtain ⟨b, t2, hb⟩ := List.exists_cons_of_length_pos k2
  have r1 : rd l1 0 = some a := by rw [ha]; rfl
  have r2 : rd l2 0 = some b := by rw [hb]; rfl
  have a1 : l1.head? = some a := by rw [ha]; rfl
  have a2 : l2.head? = some b := by rw [hb]; rfl
  unfold cliShow
  by_cases hv0 : vb = 0
  · rw [if_pos hv0]
    exact ⟨_, rfl, Or.inl ⟨hv0, rfl⟩⟩
  rw [if_neg hv0]
  by_cases hv1 : vb = 1
  · rw [if_pos hv1]
    refine ⟨.best a.index b.index, ?_, Or.inr (Or.inl ⟨hv1, a, b, a1, a2, rfl⟩)⟩
    simp only [r1, r2, Option.bind_eq_bind, Option.bind_some, Option.pure_def]
  rw [if_neg hv1]
  by_cases hv2 : vb = 2 ∨ vb = 3
  · rw [if_pos hv2]
    refine ⟨.lists (vb = 3) l1 l2, ?_, Or.inr (Or.inr (Or.inl ⟨hv2, rfl⟩))⟩
    simp only [readAll_eq l1 le_rfl, readAll_eq l2 le_rfl, Option.bind_eq_bind, Option.bind_some, Option.pure_def, List.take_length]
  rw [if_neg hv2]
  have s1 : c.szSub l1.length 1 = l1.length - 1 := Cfg.szSub_eq k1 h1
  have s2 : c.szSub l2.length 1 = l2.length - 1 := Cfg.szSub_eq k2 h2
  have g1 : rd l1 (l1.length - 1) = some e1 := by rw [hl1]; simp [rd]
  have g2 : rd l2 (l2.length - 1) = some e2 := by rw [hl2]; simp [rd]
  refine ⟨.report e1.index e2.index a.index b.index (l1.length = 1 ∧ l2.length = 1) l1.dropLast l2.dropLast, ?_,
    Or.inr (Or.inr (Or.inr ⟨by omega, a, b, a1, a2, rfl⟩))⟩
  simp only [s1, s2, g1, g2, r1, r2, readAll_eq l1 (Nat.sub_le _ 1), readAll_eq l2 (Nat.sub_le _ 1), Option.bind_eq_bind, Option.bind_some, Option.pure_def,
    List.dropLast_eq_take]

theorem dimList_length (hs : Build s) (ht : InUnit a.params.threshold) {length : ℕ} {res : Option (Buf Fl)} {bound : Option (ℕ × ℕ)}
    (hd : DimGood length a.params.range res bound) (hp : length ≤ s.cfg.pixelMax) (hi : length ≤ s.cfg.intMax) :
    (dimList s a length res).length ≤ s.cfg.sizeMax := by
  have h1 := (s.env.sorter_perm _ (dim_consistent (s := s) (nimages := a.nimages) (length := length) (data := scores res) ht)).length_eq
  have h2 : (candidates s.cfg a.params a.nimages length (scores res)).length ≤ (scores res).length := by
    unfold candidates
    rw [List.length_map]
    exact le_trans (List.length_filter_le _ _) (by simp)
  have h3 : (scores res).length ≤ length := by
    unfold DimGood at hd
    split at hd
    · obtain ⟨r, rfl, h, _⟩ := hd
      show r.data.length ≤ length
      omega
    · subst hd
      exact Nat.zero_le _
  have h4 := hs.results length hi hp
  have h5 := hs.wf.szRes_pos
  have h6 : (length + 1) * 1 ≤ (length + 1) * s.cfg.szRes := Nat.mul_le_mul_left _ h5
  have h7 : (dimList s a length res).length = (candidates s.cfg a.params a.nimages length (scores res)).length + 1 := h1
  omega

theorem cliAnalyze_act (hs : Build s) {st : CliState} {m : Method} {p : Params} (hm : m ∈ methods) (hp : ValidParams? s.cfg (some p))
    (hr : r.Sound s.cfg (fun _ => True) True F Ok) (hi : Handle s r Ok W H i x) {buf : Buf Fl} {fuel block : ℕ}
    {K : RDError → ℕ → List (Call × Obs) → Prop}
    (hF : LinesTooBig s.cfg W H → F) (hK : ∀ e ct ev, K e ct ev → e ≠ 0 → Printable s.cfg e ∨ U)
    (hloop : ∀ (a : Analysis) (L1 : List ℕ), InLoop s (some m) (some p) W H L1 [] a →
      Act U F (held buf.id i x L1) (x.files ++ S) (cliLoop s st.nframes fuel 1 i buf a) (CliPost s r Ok (some m) (some p) W H L1 L1 S a K)) :
    Act U F (held buf.id i x (block :: L)) (x.files ++ S) (cliAnalyze s v fuel st m block p i buf W H)
      (fun ex _ S' => S' = S ∧ CliDone s F K W H st.verbosity (some m) (some p) ex) := by
  unfold cliAnalyze
  have hm' : ValidMethod? (some m) := fun x hx => by cases hx; exact hm
  refine Act.bind (Act.seen (Act.ofTri (createAnalysis_tri hs hm' hp (fun h => hF h.lines)))) ?_
  rintro ⟨oa, e⟩ L1 S1 ⟨⟨rfl, hc⟩, w1, w1', hw1, _, he1⟩
  simp only
  have fail : ∀ L2 (e : RDError), L1.Perm (held buf.id i x (block :: L2)) → oa = none → e ≠ 0 → Printable s.cfg e →
      Created s F (held buf.id i x (block :: L)) (some m) W H (some p) (none, e) L1 →
      Act U F L1 (x.files ++ S) (cliEnd s v st.verbosity block oa (some i) (some buf) none none none e false .nothing)
        (fun ex _ S' => S' = S ∧ CliDone s F K W H st.verbosity (some m) (some p) ex) := by
    rintro L2 e hp2 rfl he hpr hc
    refine Act.mono (cliEnd_act (closeHandle_act hr hi) (L := L2) ?_ (fun _ => Or.inl hpr) (fun h => absurd h he)) ?_
    · refine hp2.trans ?_
      simp only [held, Option.map_none, Option.map_some, Option.toList_none, Option.toList_some, Option.getD_none]
      perm_count
    · rintro ⟨code, shown⟩ _ _ ⟨_, rfl, h1, h2⟩
      simp only at h1 h2
      subst h1
      have : code = 1 := by
        rcases h2 with ⟨_, h⟩ | ⟨h, _⟩ | ⟨h, _⟩ | ⟨h, _⟩
        · exact h
        all_goals exact absurd h he
      subst this
      exact ⟨rfl, .create e _ _ hc⟩
  have pr : ∀ e : ℤ, 0 ≤ e → e ≤ 7 → Printable s.cfg e := fun e h1 h2 => ⟨by omega, h2⟩
  cases hc with
  | zero h => exact if_pos (show RDEINVAL ≠ 0 by decide) ▸ fail L RDEINVAL (List.Perm.refl _) rfl (by decide) (pr _ (by decide) (by decide)) (.zero h)
  | toobig h1 h2 h3 => exact if_pos (show RDETOOBIG ≠ 0 by decide) ▸ fail L RDETOOBIG (List.Perm.refl _) rfl (by decide) (pr _ (by decide) (by decide)) (.toobig h1 h2 h3)
  | internal h1 h2 h3 h4 h5 h6 h7 =>
    exact if_pos (show RDEINTERNAL ≠ 0 by decide) ▸ fail L RDEINTERNAL (List.Perm.refl _) rfl (by decide) (pr _ (by decide) (by decide)) (.internal h1 h2 h3 h4 h5 h6 h7)
  | nomem _ h1 h2 =>
    rw [if_pos (show RDENOMEM ≠ 0 by decide)]
    rcases h2 with rfl | ⟨h2, h3, y, rfl⟩
    · exact fail L RDENOMEM (List.Perm.refl _) rfl (by decide) (pr _ (by decide) (by decide)) (.nomem _ h1 (Or.inl rfl))
    · refine fail (y :: L) RDENOMEM ?_ rfl (by decide) (pr _ (by decide) (by decide)) (.nomem _ h1 (Or.inr ⟨h2, h3, y, rfl⟩))
      unfold held
      perm_count
  | ok a _ hf hperm _ _ _ =>
    rw [if_neg (show ¬ RDEOK ≠ 0 by decide)]
    have hperm2 : L1.Perm (held buf.id i x (a.blocks ++ (block :: L))) := by
      refine hperm.trans ?_
      unfold held
      perm_count
    refine Act.of_perm ?_ hperm2 (List.Perm.refl _)
    refine Act.bind (Act.need (Q := fun b l s' => b = a ∧ l = held buf.id i x (a.blocks ++ (block :: L)) ∧ s' = x.files ++ S) rfl ⟨rfl, rfl, rfl⟩) ?_
    rintro b _ _ ⟨e1, rfl, rfl⟩
    subst b
    refine Act.bind (hloop a (a.blocks ++ (block :: L)) ⟨Reach.create hw1 he1, hf.good, hf.width, hf.height, fun b hb => List.mem_append_left _ hb⟩) ?_
    rintro ⟨e, ct, i', buf', a'⟩ _ _ ⟨ev, x', hk, hin, hbl, hi', rfl, rfl⟩
    simp only at hk hin hbl hi' ⊢
    have perm0 : (held buf'.id i' x' (a.blocks ++ block :: L)).Perm (((some a').map Analysis.blocks).getD [] ++ ((i'.block :: x'.blocks) ++
        (((some buf').map Buf.id).toList ++ (block :: (((none : Option (Buf Res)).map Buf.id).toList ++ (((none : Option (Buf Res)).map Buf.id).toList ++ L)))))) := by
      simp only [held, Option.map_none, Option.map_some, Option.toList_none, Option.toList_some, Option.getD_some, hbl]
      perm_count
    by_cases he : e = 0 ∧ ct = 1
    · obtain ⟨rfl, rfl⟩ := he
      rw [if_pos ⟨rfl, rfl⟩]
      refine Act.mono (cliEnd_act (closeHandle_act hr hi') perm0 (fun h => absurd rfl h) (fun _ h => by cases h)) ?_
      rintro ⟨code, shown⟩ _ _ ⟨_, rfl, h1, h2⟩
      simp only at h1 h2
      subst h1
      have : code = 1 := by
        rcases h2 with ⟨h, _⟩ | ⟨_, _, h⟩ | ⟨_, h, _⟩ | ⟨_, h, _⟩
        · exact absurd rfl h
        · exact h
        all_goals cases h
      subst this
      exact ⟨rfl, .empty ev a' hin.reach hk⟩
    rw [if_neg he]
    by_cases h0 : e ≠ 0
    · rw [if_pos h0]
      refine Act.mono (cliEnd_act (closeHandle_act hr hi') perm0 (hK e ct ev hk) (fun h => absurd h h0)) ?_
      rintro ⟨code, shown⟩ _ _ ⟨_, rfl, h1, h2⟩
      simp only at h1 h2
      subst h1
      have : code = 1 := by
        rcases h2 with ⟨_, h⟩ | ⟨h, _⟩ | ⟨h, _⟩ | ⟨h, _⟩
        · exact h
        all_goals exact absurd h h0
      subst this
      exact ⟨rfl, .stopped ev a' e ct hin.reach hk h0⟩
    rw [if_neg h0]
    have h0 : e = 0 := not_not.mp h0
    subst h0
    have hct : ct ≠ 1 := fun h => he ⟨rfl, h⟩
    have hsub : ∀ b ∈ a'.blocks, b ∈ held buf'.id i' x' (a.blocks ++ (block :: L)) := by
      intro b hb
      rw [hbl] at hb
      simp [held, hb]
    refine Act.bind (Act.seen (Act.ofTri (results_tri_eq hs hin.good (ptr := Ptrs.all) hsub))) ?_
    rintro ⟨e3, out, oa3⟩ L3 S3 ⟨⟨rfl, k3⟩, w3, w3', hw3, hlive3, he3⟩
    have hoa : oa3 = some a' := by cases k3 <;> rfl
    subst hoa
    simp only
    have hleg : Legal a' ⟨.results Ptrs.all, w3⟩ := ⟨hw3, fun b hb => hlive3 b (hsub b (hin.good.owned_blocks b hb)), trivial⟩
    have hstep : step s a' ⟨.results Ptrs.all, w3⟩ =
        some (.results e3 (out.rw.map Buf.data) out.cw (out.rh.map Buf.data) out.ch, a') := by
      simp only [step, he3]
    have hperm3 : L3.Perm (((some a').map Analysis.blocks).getD [] ++ ((i'.block :: x'.blocks) ++
        (((some buf').map Buf.id).toList ++ (block :: ((out.rw.map Buf.id).toList ++ ((out.rh.map Buf.id).toList ++ L)))))) := by
      simp only [Option.map_some, Option.getD_some, Option.toList_some]
      rw [hbl]
      cases k3 with
      | ok rw rh L' _ _ _ _ hp3 =>
        refine hp3.trans ?_
        unfold held
        perm_count
      | param => simp only [Out.nothing, held, Option.map_none, Option.toList_none, List.nil_append]; perm_count
      | noimg => simp only [Out.nothing, held, Option.map_none, Option.toList_none, List.nil_append]; perm_count
      | nomem => simp only [Out.nothing, held, Option.map_none, Option.toList_none, List.nil_append]; perm_count
    by_cases h3 : e3 ≠ 0
    · rw [if_pos h3]
      have hpr : Printable s.cfg e3 := by
        cases k3 with
        | ok => exact absurd rfl h3
        | param => exact pr _ (by decide) (by decide)
        | noimg => exact pr _ (by decide) (by decide)
        | nomem => exact pr _ (by decide) (by decide)
      refine Act.mono (cliEnd_act (closeHandle_act hr hi') hperm3 (fun _ => Or.inl hpr) (fun h => absurd h h3)) ?_
      rintro ⟨code, shown⟩ _ _ ⟨_, rfl, h1, h2⟩
      simp only at h1 h2
      subst h1
      have : code = 1 := by
        rcases h2 with ⟨_, h⟩ | ⟨h, _⟩ | ⟨h, _⟩ | ⟨h, _⟩
        · exact h
        all_goals exact absurd h h3
      subst this
      refine ⟨rfl, .results ev a' ct _ e3 _ _ _ _ hin.reach hk hct hleg rfl hstep h3 ?_⟩
      intro hne
      cases k3 with
      | ok => simp [RDEOK, RDENOMEM] at hne
      | param => simp [RDEPARAM, RDENOMEM] at hne
      | noimg => simp [RDENOIMG, RDENOMEM] at hne
      | nomem _ _ h => exact h
    · rw [if_neg h3]
      have h3 : e3 = 0 := not_not.mp h3
      generalize hv : (e3, out, some a') = res at k3
      cases k3 with
      | param => cases hv; exact absurd h3 (by decide)
      | noimg => cases hv; exact absurd h3 (by decide)
      | nomem => cases hv; exact absurd h3 (by decide)
      | ok rw rh _ _ _ hl1 hl2 _ =>
        simp only [Prod.mk.injEq, and_true] at hv
        obtain ⟨rfl, rfl⟩ := hv
        have hl1' : rw.map Buf.data = some (dimList s a' a'.width a'.xresult) := hl1
        have hl2' : rh.map Buf.data = some (dimList s a' a'.height a'.yresult) := hl2
        obtain ⟨b1, rfl, hb1⟩ := Option.map_eq_some_iff.mp hl1'
        obtain ⟨b2, rfl, hb2⟩ := Option.map_eq_some_iff.mp hl2'
        simp only [Option.map_some, Option.getD_some] at hstep hperm3 ⊢
        have hret : Returned s (some m) W H (some p) ev a' (some b1.data) b1.data.length (some b2.data) b2.data.length :=
          ⟨hin.reach, _, _, hleg, hstep⟩
        have g := hin.good
        have wp : a'.width ≤ s.cfg.pixelMax := le_trans (Nat.le_mul_of_pos_right _ g.height_pos) g.pixels
        have hpx : a'.height ≤ s.cfg.pixelMax := le_trans (Nat.le_mul_of_pos_left _ g.width_pos) g.pixels
        have len1 : b1.data.length ≤ s.cfg.sizeMax := by
          rw [hb1]
          exact dimList_length hs g.threshold g.x wp (le_trans g.sideX sideMax_le)
        have len2 : b2.data.length ≤ s.cfg.sizeMax := by
          rw [hb2]
          exact dimList_length hs g.threshold g.y hpx (le_trans g.sideY sideMax_le)
        obtain ⟨c1, c2⟩ := Props.C01_sorted_sentinel hs hm' hp hret
        obtain ⟨_, i1, k1, _⟩ := c1 _ rfl
        obtain ⟨_, i2, k2, _⟩ := c2 _ rfl
        obtain ⟨shown, hsh, _⟩ := cliShow_ok (vb := st.verbosity) len1 len2 k1 k2
        refine Act.bind (Act.need (Q := fun b l s' => b = b1 ∧ l = L3 ∧ s' = x'.files ++ S) rfl ⟨rfl, rfl, rfl⟩) ?_
        rintro b _ _ ⟨e4, e5, rfl⟩
        subst b e5
        refine Act.bind (Act.need (Q := fun b l s' => b = b2 ∧ l = _ ∧ s' = x'.files ++ S) rfl ⟨rfl, rfl, rfl⟩) ?_
        rintro b _ _ ⟨e4, e5, rfl⟩
        subst b e5
        refine Act.bind (Act.need (Q := fun b l s' => b = shown ∧ l = _ ∧ s' = x'.files ++ S) hsh ⟨rfl, rfl, rfl⟩) ?_
        rintro b _ _ ⟨e4, e5, rfl⟩
        subst b e5
        refine Act.mono (cliEnd_act (closeHandle_act hr hi') hperm3 (fun h => absurd rfl h) (fun _ _ _ => ⟨_, rfl⟩)) ?_
        rintro ⟨code, sh⟩ _ _ ⟨_, rfl, h1, h2⟩
        simp only at h1 h2
        subst h1
        have : code = if st.verbosity = 0 ∧ b1.data.length = 1 ∧ b2.data.length = 1 then 1 else 0 := by
          rcases h2 with ⟨h, _⟩ | ⟨_, h, _⟩ | ⟨_, _, h4, cw, ch, h5, h⟩ | ⟨_, _, h4, h⟩
          · exact absurd rfl h
          · cases h
          · cases h5
            rw [h]
            simp only [h4, true_and]
          · rw [if_neg (fun h => h4 h.1)]
            exact h
        subst this
        exact ⟨rfl, .ok ev a' ct _ _ _ hk hct hret hsh⟩

theorem CliPost.trans {L0 : List ℕ} {a a' : Analysis} {K K' : RDError → ℕ → List (Call × Obs) → Prop} {v : RDError × ℕ × RDImage × Buf Fl × Analysis}
    {L' S' : List ℕ} (h : CliPost s r Ok m p W H L0 L S a' K v L' S') (ha : a'.blocks = a.blocks) (hK : ∀ e ct ev, K e ct ev → K' e ct ev) :
    CliPost s r Ok m p W H L0 L S a K' v L' S' := by
  obtain ⟨ev, x', h1, h2, h3, h4⟩ := h
  exact ⟨ev, x', hK _ _ _ h1, h2, h3.trans ha, h4⟩

/-- What analysing up to `n` frames (all if 0) has done, when `ct - 1` have been analysed before. -/
def Counted (F : Prop) (n ct : ℕ) (frames : List (List Fl)) (e : RDError) (e' : RDError) (ct' : ℕ) (ev1 : List (Call × Obs)) : Prop :=
  ∃ e1 : ℤ, Fed (if n = 0 then frames else frames.take (n + 1 - ct)) e1 ev1 ∧ (e1 ≠ 0 → (e' = e1 ∧ 0 ≤ e1 ∧ e1 ≤ 7) ∧ (e1 = RDENOMEM → F)) ∧
    (e1 = 0 → ct' = ct + (if n = 0 then frames else frames.take (n + 1 - ct)).length ∧ e' = if n ≠ 0 ∧ n + 1 - ct ≤ frames.length then 0 else e) ∧
    ∀ x ∈ ev1, ∀ j, x.1.world.sched j = false → F

theorem Feed.cliLoop_act {G : Ctx → List (List Fl) → RDError → Prop} (hs : Build s) (hb : Feed s r W H Ok F G) {L0 : List ℕ} (hL0 : ∀ b ∈ L0, b ∈ L) {frames : List (List Fl)} {e : RDError}
    (hi : Handle s r Ok W H i x) {buf : Buf Fl} (hl : buf.data.length = W * H) (hfr : G x frames e) {fuel n ct : ℕ}
    (hfuel : frames.length < fuel) (hct : ct + frames.length ≤ s.cfg.sizeMax) (hn : n = 0 ∨ ct ≤ n) (ha : InLoop s m p W H L0 ev a) (hF : LinesTooBig s.cfg W H → F) :
    Act False F (held buf.id i x L) (x.files ++ S) (cliLoop s n fuel ct i buf a)
      (CliPost s r Ok m p W H L0 L S a (fun e' ct' ev' => ∃ ev1, ev' = ev ++ ev1 ∧ Counted F n ct frames e e' ct' ev1)) := by
  induction fuel generalizing i x buf a ev frames ct with
  | zero => omega
  | succ fuel ih =>
    unfold cliLoop
    refine Act.bind (hb.frame_act (L := L) (S := S) hi hfr (buf := buf) hl) ?_
    rintro v L1 S1 ⟨x', data, rfl, hdata, hi', rfl, rfl⟩
    simp only
    refine Act.bind (Act.need (Q := fun a l s' => a = _ ∧ l = held buf.id i x' L ∧ s' = x'.files ++ S) rfl ⟨rfl, rfl, rfl⟩) ?_
    rintro _ _ _ ⟨rfl, rfl, rfl⟩
    refine Act.bind (Act.need (Q := fun a l s' => a = _ ∧ l = held buf.id i x' L ∧ s' = x'.files ++ S) rfl ⟨rfl, rfl, rfl⟩) ?_
    rintro _ _ _ ⟨rfl, rfl, rfl⟩
    cases frames with
    | nil =>
      simp only [List.isEmpty_nil, Bool.not_true, Bool.not_false, if_true]
      refine Act.pure ⟨ev, x', ⟨[], by simp, 0, by simp only [List.take_nil, ite_self]; exact Fed.done, fun h => absurd rfl h, fun _ => ⟨by simp, ?_⟩, fun _ h => by cases h⟩, ha, rfl, hi', rfl, rfl⟩
      rw [if_neg]
      simp only [List.length_nil]
      omega
    | cons f rest =>
      obtain ⟨rfl, hf2, hfr2⟩ := hdata f rest rfl
      simp only [List.length_cons] at hfuel hct
      have hwin : (if n = 0 then data :: rest else (data :: rest).take (n + 1 - ct)) = data :: (if n = 0 then rest else rest.take (n + 1 - (ct + 1))) := by
        by_cases h0 : n = 0
        · rw [if_pos h0, if_pos h0]
        · rw [if_neg h0, if_neg h0]
          have : n + 1 - ct = (n + 1 - (ct + 1)) + 1 := by omega
          rw [this, List.take_succ_cons]
      simp only [List.isEmpty_cons, Bool.not_false, Bool.not_true, Bool.false_eq_true, if_false]
      refine Act.bind (analyze_world hs ha (by intro b hb; simp [held, hL0 b hb]) hf2.ge) ?_
      rintro ⟨e2, oa⟩ _ _ ⟨rfl, rfl, a', wd, rfl, hbl, hc2, ha', hwd⟩
      refine Act.bind (Act.need (Q := fun a l s' => a = a' ∧ l = held buf.id i x' L ∧ s' = x'.files ++ S) rfl ⟨rfl, rfl, rfl⟩) ?_
      rintro a1 _ _ ⟨e1, rfl, rfl⟩
      subst a1
      by_cases he : e2 ≠ 0
      · rw [if_pos he]
        refine Act.pure ⟨_, x', ⟨[_], rfl, e2, ?_, fun _ => ⟨⟨rfl, hc2.1⟩, fun h => hc2.2 h hF⟩, fun h => absurd h he, by simpa using hwd⟩, ha', hbl, hi', rfl, rfl⟩
        rw [hwin]
        exact Fed.refused _ _ _ _ he
      · rw [if_neg he]
        have he : e2 = 0 := not_not.mp he
        subst he
        rw [Cfg.sz_eq (by omega)]
        by_cases hstop : n ≠ 0 ∧ ct + 1 > n
        · rw [if_pos hstop]
          have h1 : n + 1 - (ct + 1) = 0 := by omega
          refine Act.pure ⟨_, x', ⟨[_], rfl, 0, ?_, fun h => absurd rfl h, fun _ => ⟨?_, ?_⟩, by simpa using hwd⟩, ha', hbl, hi', rfl, rfl⟩
          · rw [hwin, if_neg hstop.1, h1, List.take_zero]
            exact Fed.next _ _ _ _ _ Fed.done
          · rw [hwin, if_neg hstop.1, h1, List.take_zero]
            rfl
          · rw [if_pos]
            simp only [List.length_cons]
            omega
        · rw [if_neg hstop]
          have := ih (i := { i with ctx := some x' }) hi' (buf := ⟨buf.id, data⟩) hf2 (ct := ct + 1) hfr2
            (by omega) (by omega) (by omega) ha'
          refine Act.mono this ?_
          intro v L' S' hv
          refine hv.trans hbl ?_
          rintro e3 ct3 ev3 ⟨ev1, rfl, e1, h2, h3, h4, h8⟩
          refine ⟨_ :: ev1, List.append_assoc _ _ _, e1, ?_, h3, fun h => ?_, by simpa using ⟨hwd, fun a b hab => h8 (a, b) hab⟩⟩
          · rw [hwin]
            exact Fed.next _ _ _ _ _ h2
          · obtain ⟨h5, h6⟩ := h4 h
            rw [hwin, List.length_cons, h5, h6]
            refine ⟨by omega, ?_⟩
            have : (n ≠ 0 ∧ n + 1 - (ct + 1) ≤ rest.length) ↔ (n ≠ 0 ∧ n + 1 - ct ≤ (data :: rest).length) := by
              simp only [List.length_cons]
              omega
            simp only [this]

theorem cliLoop_safe (hs : Build s) (hr : r.Sound s.cfg (fun _ => True) True F Ok) {L0 : List ℕ} (hL0 : ∀ b ∈ L0, b ∈ L)
    (hi : Handle s r Ok W H i x) {buf : Buf Fl} (hl : buf.data.length = W * H) {fuel n ct : ℕ} (ha : InLoop s m p W H L0 ev a)
    (hev : ∀ o ∈ ev, o.2 = .analyzed RDEOK) :
    Act True F (held buf.id i x L) (x.files ++ S) (cliLoop s n fuel ct i buf a)
      (CliPost s r Ok m p W H L0 L S a (fun e' _ ev' => e' = 0 → ∀ o ∈ ev', o.2 = .analyzed RDEOK)) := by
  induction fuel generalizing i x buf a ev ct with
  | zero =>
    intro base w hw
    exact Or.inl ⟨rfl, trivial⟩
  | succ fuel ih =>
    unfold cliLoop
    have h1 := (hr.reads (buf.id :: i.block :: L) S x (buf.data.drop 0) W H hi.ok hi.within
      (by rw [List.length_drop]; omega)).of_perm (held_perm buf.id i x L) (List.Perm.refl _)
    have e1' : r.read x (buf.data.drop 0) W H = r.read x (buf.data.drop 0) i.width i.height := by rw [hi.width, hi.height]
    rw [e1'] at h1
    refine Act.bind ((readFrame_act h1 hi.reader hi.ctx (by simp [held]) (by simp [held]) (by omega)).toPerm
      (Q := fun a L' S' => ∃ ret e data x', a = (ret, e, some ⟨buf.id, data⟩, some { i with ctx := some x' }) ∧
        data.length = W * H ∧ Code e ∧ Handle s r Ok W H { i with ctx := some x' } x' ∧ L' = held buf.id i x' L ∧ S' = x'.files ++ S) ?_) ?_
    · rintro a L' S' ⟨v, ⟨hsp, _, hc, hx', rfl, rfl⟩, rfl⟩
      refine ⟨_, (held_perm buf.id i v.2.2.2 L).symm, v.1, v.2.1, v.2.2.1, v.2.2.2, by simp, ?_, hc, hi.move hx', rfl, rfl⟩
      rw [hsp.1, List.length_drop]; omega
    rintro v L1 S1 ⟨ret, e, data, x', rfl, hdl, hc, hi', rfl, rfl⟩
    simp only
    refine Act.bind (Act.need (Q := fun a l s' => a = _ ∧ l = held buf.id i x' L ∧ s' = x'.files ++ S) rfl ⟨rfl, rfl, rfl⟩) ?_
    rintro _ _ _ ⟨rfl, rfl, rfl⟩
    refine Act.bind (Act.need (Q := fun a l s' => a = _ ∧ l = held buf.id i x' L ∧ s' = x'.files ++ S) rfl ⟨rfl, rfl, rfl⟩) ?_
    rintro _ _ _ ⟨rfl, rfl, rfl⟩
    cases ret with
    | false =>
      simp only [Bool.not_false, if_true]
      exact Act.pure ⟨ev, x', fun _ => hev, ha, rfl, hi', rfl, rfl⟩
    | true =>
      simp only [Bool.not_true, Bool.false_eq_true, if_false]
      refine Act.bind ((analyze_act hs ha (by intro b hb; simp [held, hL0 b hb]) hdl).weaken False.elim Iff.rfl) ?_
      rintro ⟨e2, oa⟩ _ _ ⟨rfl, rfl, a', wd, rfl, hbl, hc2, ha'⟩
      refine Act.bind (Act.need (Q := fun a l s' => a = a' ∧ l = held buf.id i x' L ∧ s' = x'.files ++ S) rfl ⟨rfl, rfl, rfl⟩) ?_
      rintro a1 _ _ ⟨e1, rfl, rfl⟩
      subst a1
      by_cases he : e2 ≠ 0
      · rw [if_pos he]
        exact Act.pure ⟨_, x', fun h => absurd h he, ha', hbl, hi', rfl, rfl⟩
      · rw [if_neg he]
        have he : e2 = 0 := not_not.mp he
        subst he
        have hev' : ∀ o ∈ ev ++ [((⟨.analyze (some data), wd⟩ : Call), Obs.analyzed 0)], o.2 = .analyzed RDEOK := by
          intro o ho
          rcases List.mem_append.mp ho with ho | ho
          · exact hev o ho
          · rw [List.mem_singleton.mp ho]
            rfl
        by_cases hstop : n ≠ 0 ∧ s.cfg.sz (ct + 1) > n
        · rw [if_pos hstop]
          exact Act.pure ⟨_, x', fun _ => hev', ha', hbl, hi', rfl, rfl⟩
        · rw [if_neg hstop]
          refine Act.mono (ih (i := { i with ctx := some x' }) hi' (buf := ⟨buf.id, data⟩) hdl ha' hev') ?_
          exact fun v L' S' hv => hv.trans hbl (fun _ _ _ h => h)

end Verif
