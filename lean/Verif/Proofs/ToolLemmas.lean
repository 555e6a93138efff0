import Verif.Proofs.StatLemmas

/-! What stat and profile rely on. -/

namespace Verif

open Spec Props

variable {s : Sys} {io : Io} {v : CliEnv} {U F : Prop} {L S : List ℕ} {W H : ℕ} {m : Option Method} {p : Option Params}
  {ev : List (Call × Obs)} {a : Analysis} {ptr : Ptrs}

theorem getMethod_valid (n : Option String) : ValidMethod? (resdetGetMethod n) := by
  intro m hm
  cases n with
  | none => exact List.mem_of_mem_head? hm
  | some n => exact ((searchMethod_iff (by decide)).mp hm).1

/-- Both lists of a successful detection. -/
structure Lists (s : Sys) (m : Option Method) (W H : ℕ) (p : Option Params) (ev : List (Call × Obs)) (a : Analysis) (out : Out) (b1 b2 : Buf Res)
    (l1 l2 : List Res) (x1 x2 : Res) : Prop where
  rw : out.rw = some b1
  rh : out.rh = some b2
  width : b1.data = l1 ++ [x1]
  height : b2.data = l2 ++ [x2]
  cw : out.cw = l1.length + 1
  ch : out.ch = l2.length + 1
  small1 : l1.length < s.cfg.sizeMax
  small2 : l2.length < s.cfg.sizeMax
  returned : Returned s m W H p ev a (some (l1 ++ [x1])) (l1.length + 1) (some (l2 ++ [x2])) (l2.length + 1)

theorem lists_of_results (hs : Build s) (hm : ValidMethod? m) (hp : ValidParams? s.cfg p) (hreach : Reach s m W H p ev a) {c : Call} (hl : Legal a c)
    (hop : c.op = .results Ptrs.all) {out : Out} {a' : Analysis}
    (hstep : step s a c = some (.results RDEOK (out.rw.map Buf.data) out.cw (out.rh.map Buf.data) out.ch, a')) :
    ∃ b1 b2 l1 l2 x1 x2, Lists s m W H p ev a out b1 b2 l1 l2 x1 x2 := by
  have hinv := reach_inv hs hm hp hreach
  obtain ⟨ptr, k0, _, _, _, _, k1, k2, k3, k4⟩ := results_obs hs hinv.good hl hstep
  rw [hop] at k0
  cases k0
  have k1 : out.rw.map Buf.data = some (dimList s a a.width a.xresult) := k1
  have k2 : out.rh.map Buf.data = some (dimList s a a.height a.yresult) := k2
  obtain ⟨b1, hb1, e1⟩ := Option.map_eq_some_iff.mp k1
  obtain ⟨b2, hb2, e2⟩ := Option.map_eq_some_iff.mp k2
  obtain ⟨l1, h1, _⟩ := dimList_shape (s := s) (a := a) (length := a.width) (result := a.xresult) hinv.good.threshold
  obtain ⟨l2, h2, _⟩ := dimList_shape (s := s) (a := a) (length := a.height) (result := a.yresult) hinv.good.threshold
  have hg := hinv.good
  have n1 := dimList_length hs hg.threshold hg.x (le_trans (Nat.le_mul_of_pos_right _ hg.height_pos) hg.pixels) (le_trans hg.sideX sideMax_le)
  have n2 := dimList_length hs hg.threshold hg.y (le_trans (Nat.le_mul_of_pos_left _ hg.width_pos) hg.pixels) (le_trans hg.sideY sideMax_le)
  rw [h1, List.length_append, List.length_singleton] at n1
  rw [h2, List.length_append, List.length_singleton] at n2
  have c1 : out.cw = l1.length + 1 := by rw [k3, k1, h1]; simp
  have c2 : out.ch = l2.length + 1 := by rw [k4, k2, h2]; simp
  refine ⟨b1, b2, l1, l2, _, _, hb1, hb2, e1.trans h1, e2.trans h2, c1, c2, n1, n2, hreach, c, a', hl, ?_⟩
  rw [hstep, k1, k2, h1, h2, c1, c2]

theorem szSub_one {c : Cfg} {n : ℕ} (h : n < c.sizeMax) : c.szSub (n + 1) 1 = n := by
  unfold Cfg.szSub
  have e1 : 1 % (c.sizeMax + 1) = 1 := Nat.mod_eq_of_lt (by omega)
  rw [e1, show n + 1 + (c.sizeMax + 1) - 1 = n + (c.sizeMax + 1) by omega, Nat.add_mod_right, Nat.mod_eq_of_lt (by omega)]

/-- What stat does after `resdetect_file`. -/
def statTail (s : Sys) (v : CliEnv) (r : RDError × Out) : M (RDError × Option (Stat × Stat)) := do
  let (e, out) := r
  if e ≠ 0 then
    freeBuf out.rw
    freeBuf out.rh
    let msg ← need (resdetErrorStr s.cfg v.strerror e)
    let _ ← need msg
    return (e, none)
  else
    let rw ← need out.rw
    let a ← need (statres s.cfg rw.data (s.cfg.szSub out.cw 1))
    let rh ← need out.rh
    let b ← need (statres s.cfg rh.data (s.cfg.szSub out.ch 1))
    freeBuf out.rw
    freeBuf out.rh
    return (e, some (a, b))

theorem statMain_eq (s : Sys) (io : Io) (v : CliEnv) (fuel : ℕ) (input : List UInt8) (method : Option (List UInt8)) :
    statMain s io v fuel input method =
      resdetectFile s io fuel (some input) none Ptrs.all (resdetGetMethod (method.map textOf)) none >>= statTail s v := rfl

theorem statTail_fail {e : RDError} (h0 : e ≠ 0) (he : Printable s.cfg e) :
    Act U F L S (statTail s v (e, Out.nothing)) (fun a _ _ => a = (e, none)) := by
  unfold statTail
  simp only
  rw [if_pos h0]
  obtain ⟨t, ht⟩ := printable_str he v.strerror
  refine Act.bind (freeBuf_act (L := L) (List.Perm.refl _)) ?_
  rintro _ L1 S1 ⟨h1, e1⟩
  refine Act.bind (freeBuf_act (L := L1) (List.Perm.refl _)) ?_
  rintro _ L2 S2 ⟨h2, e2⟩
  refine Act.bind (Act.need (Q := fun a l s' => a = some t) ht rfl) ?_
  rintro _ _ _ rfl
  refine Act.bind (Act.need (Q := fun a l s' => True) rfl trivial) ?_
  rintro _ _ _ _
  exact Act.pure rfl

theorem statTail_ok {out : Out} {b1 b2 : Buf Res} {l1 l2 : List Res} {x1 x2 : Res} (h : Lists s m W H p ev a out b1 b2 l1 l2 x1 x2) {L1 : List ℕ}
    (hp : L1.Perm (b1.id :: b2.id :: L)) :
    Act U F L1 S (statTail s v (0, out)) (fun a L' S' => L'.Perm L ∧ S' = S ∧ ∃ a1 a2, a = (0, some (a1, a2)) ∧
      statres s.cfg (l1 ++ [x1]) l1.length = some a1 ∧ statres s.cfg (l2 ++ [x2]) l2.length = some a2) := by
  unfold statTail
  simp only
  rw [if_neg (by simp), h.rw, h.rh, h.cw, h.ch, szSub_one h.small1, szSub_one h.small2]
  obtain ⟨_, _, _, k1, _⟩ := statres_eq s.cfg l1 x1
  obtain ⟨_, _, _, k2, _⟩ := statres_eq s.cfg l2 x2
  rw [← h.width] at k1
  rw [← h.height] at k2
  refine Act.bind (Act.need (Q := fun a l s' => a = b1 ∧ l = L1 ∧ s' = S) rfl ⟨rfl, rfl, rfl⟩) ?_
  rintro d1 _ _ ⟨i1, rfl, rfl⟩
  subst d1
  refine Act.bind (Act.need (Q := fun a l s' => statres s.cfg b1.data l1.length = some a ∧ l = _ ∧ s' = _) k1 ⟨k1, rfl, rfl⟩) ?_
  rintro a1 _ _ ⟨h1, rfl, rfl⟩
  refine Act.bind (Act.need (Q := fun a l s' => a = b2 ∧ l = _ ∧ s' = _) rfl ⟨rfl, rfl, rfl⟩) ?_
  rintro d1 _ _ ⟨i1, rfl, rfl⟩
  subst d1
  refine Act.bind (Act.need (Q := fun a l s' => statres s.cfg b2.data l2.length = some a ∧ l = _ ∧ s' = _) k2 ⟨k2, rfl, rfl⟩) ?_
  rintro a2 _ _ ⟨h2, rfl, rfl⟩
  refine Act.bind (freeBuf_act (b := some b1) hp) ?_
  rintro _ L2 _ ⟨h3, rfl⟩
  refine Act.bind (freeBuf_act (b := some b2) h3) ?_
  rintro _ L3 S3 ⟨h4, rfl⟩
  exact Act.pure ⟨h4, rfl, a1, a2, rfl, by rw [← h.width]; exact h1, by rw [← h.height]; exact h2⟩

end Verif
