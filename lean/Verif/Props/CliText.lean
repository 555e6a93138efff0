import Verif.Proofs.CliRead
import Verif.Props.Cli

/-! # The text on standard output (C72) -/

namespace Verif.Props

open Spec

variable {s : Sys} {io : Io} {v : CliEnv} {opts : List CliOpt} {input : List UInt8} {m : Method} {p : Params} {fuel : ℕ} {w w' : World} {W H : ℕ}
  {vb : ℤ}

/-- **C72** The command prints nothing and exits with 1, or its output can be read as the lists the analysis returned. -/
theorem C72_legible (hio : io.Contract s.cfg) (hs : Build s) (hw : w.WF) (hW : Wants s.cfg io v opts input m p) (hv : Verbosity s.cfg opts vb)
    {ex : Exit} (h : cliMain s io v fuel opts (some input) w = some (ex, w')) :
    (ex.code = 1 ∧ cliText ex.shown = []) ∨ ∃ W H ev a l1 l2,
      Returned s (some m) W H (some p) ev a (some l1) l1.length (some l2) l2.length ∧ Legible vb W H l1 l2 (cliText ex.shown) := by
  rcases C47_success hio hs hw hW hv h with rfl | ⟨W, H, ev, a, l1, l2, ⟨h1, h2, _⟩, _⟩
  · exact Or.inl ⟨rfl, rfl⟩
  · obtain ⟨k1, k2⟩ := C01_sorted_sentinel hs (valid_method hW) (valid_params hs hW) h1
    obtain ⟨_, i1, e1, _⟩ := k1 l1 rfl
    obtain ⟨_, i2, e2, _⟩ := k2 l2 rfl
    exact Or.inr ⟨W, H, ev, a, l1, l2, h1, prints_legible (by rw [e1]; simp) (by rw [e2]; simp) h2⟩

/-- Options that ask for the lists with confidences. -/
def Demo.all : List CliOpt := [.v (cs "3")]

theorem Demo.all_wants : Wants Demo.sys.cfg Demo.io Demo.cliEnv Demo.all (cs "a.y4m") Demo.sign (defaultParams Demo.sys.cfg) where
  goes := by
    refine Goes.not_ends (fun b1 o1 a1 code h hend => ?_)
    rcases b1 with _ | ⟨_, b1⟩ <;> simp [Demo.all] at h
    obtain ⟨rfl, _⟩ := h; cases hend
  method := Or.inl ⟨by decide, rfl⟩
  threshold := Or.inl ⟨by decide, rfl⟩
  range := Or.inl ⟨by decide, rfl⟩
  filter := Or.inl ⟨by decide, rfl⟩
  one := Or.inl (by decide)

example : Demo.io.Contract Demo.sys.cfg ∧ Build Demo.sys ∧ Demo.w0.WF ∧
    Wants Demo.sys.cfg Demo.io Demo.cliEnv Demo.all (cs "a.y4m") Demo.sign (defaultParams Demo.sys.cfg) ∧ Verbosity Demo.sys.cfg Demo.all 3 ∧
    (cliMain Demo.sys Demo.io Demo.cliEnv 3 Demo.all (some (cs "a.y4m")) Demo.w0).map (fun r => (r.1.code, cliText r.1.shown)) =
      some (0, cs "2:-1.000000 \n1:-1.000000 \n") :=
  ⟨Demo.io_contract _, Demo.sys_build, Demo.w0_wf, Demo.all_wants,
    Or.inr ⟨cs "3", false, 3, by decide, number_iff.mpr ⟨by decide, by decide, by decide⟩, by decide, rfl⟩, by decide +kernel⟩

/-- **C72** The output can be read in one way only. -/
theorem C72_unambiguous {W' H' : ℕ} {rw rh rw' rh' : List Res} {t : List UInt8} (h : Legible vb W H rw rh t) (h' : Legible vb W' H' rw' rh' t) :
    (vb = 1 → rw.head?.map Res.index = rw'.head?.map Res.index ∧ rh.head?.map Res.index = rh'.head?.map Res.index) ∧
    (vb = 2 → rw.map Res.index = rw'.map Res.index ∧ rh.map Res.index = rh'.map Res.index) ∧
    (vb = 3 → List.Forall₂ Same rw rw' ∧ List.Forall₂ Same rh rh') ∧
    (¬ (0 ≤ vb ∧ vb ≤ 3) → W = W' ∧ H = H' ∧
      rw.head?.map Res.index = rw'.head?.map Res.index ∧ rh.head?.map Res.index = rh'.head?.map Res.index ∧
      rw.dropLast.map Res.index = rw'.dropLast.map Res.index ∧ rh.dropLast.map Res.index = rh'.dropLast.map Res.index) := by
  obtain ⟨_, h1, h2, h3, h4⟩ := h
  obtain ⟨_, k1, k2, k3, k4⟩ := h'
  refine ⟨fun hv => ?_, fun hv => ?_, fun hv => ?_, fun hv => ?_⟩
  · obtain ⟨a, b, l, ha, hb, hl, hp⟩ := h1 hv
    obtain ⟨a', b', l', ha', hb', hl', hp'⟩ := k1 hv
    cases lines_unique hl hl'
    obtain ⟨e1, e2⟩ := pair_unique (by decide) hp hp'
    rw [ha, hb, ha', hb']
    exact ⟨congrArg some e1, congrArg some e2⟩
  · obtain ⟨a, b, x, y, hl, hx, hy, h5, h6⟩ := h2 hv
    obtain ⟨a', b', x', y', hl', hx', hy', k5, k6⟩ := k2 hv
    cases lines_unique hl hl'
    cases words_unique hx hx'
    cases words_unique hy hy'
    exact ⟨numerals_unique h5 k5, numerals_unique h6 k6⟩
  · obtain ⟨a, b, x, y, hl, hx, hy, h5, h6⟩ := h3 hv
    obtain ⟨a', b', x', y', hl', hx', hy', k5, k6⟩ := k3 hv
    cases lines_unique hl hl'
    cases words_unique hx hx'
    cases words_unique hy hy'
    exact ⟨entries_unique h5 k5, entries_unique h6 k6⟩
  · obtain ⟨a, b, ha, hb, hr⟩ := h4 hv
    obtain ⟨a', b', ha', hb', hr'⟩ := k4 hv
    obtain ⟨e1, e2, e3, e4, e5, e6⟩ := report_unique hr hr'
    rw [ha, hb, ha', hb']
    exact ⟨e1, e2, congrArg some e3, congrArg some e4, e5, e6⟩

/-- **C72** The columns of the table line up: sizes below 100000 and confidences up to 99.99% take the same space, so that the heights
start in the same column. -/
theorem C72_columns {rw rh : List Res} {i : ℕ} (hrw : ∀ r ∈ rw, r.index < 100000 ∧ ∃ s v, r.confidence = .fin s v ∧ 0 ≤ v ∧ v ≤ 9999 / 10000) :
    ((cliRow rw rh i).drop 17) = (match rh[i]? with | some r => cliCell r | none => []) ++ [ch '\n'] := by
  have key : ∀ r ∈ rw, (cliCell r).length = 14 := by
    intro r hr
    obtain ⟨h1, s, v, h2, h3, h4⟩ := hrw r hr
    exact cell_length h1 h2 h3 h4
  unfold cliRow
  rw [List.append_assoc]
  rcases hi : rw[i]? with _ | r
  · rfl
  · have := key r (List.mem_of_getElem? hi)
    have hl : (cliCell r ++ cs "   ").length = 17 := by rw [List.length_append, this]; rfl
    simp only
    rw [← hl, List.drop_left]
    rfl

/-- A list as detected in an image. -/
def Demo.found : List Res := [⟨512, .fin false (15 / 16)⟩, ⟨768, .fin true (-1)⟩]

example : cliText (.best 512 512) = cs "512 512\n" ∧ cliText (.lists false Demo.found Demo.found) = cs "512 768 \n512 768 \n" ∧
    cliText (.lists true Demo.found Demo.found) = cs "512:0.937500 768:-1.000000 \n512:0.937500 768:-1.000000 \n" ∧
    cliText (.report 768 768 512 512 false Demo.found.dropLast Demo.found.dropLast) =
      cs "given: 768x768\nbest guess: 512x512\nall width        height\n  512 (93.75%)     512 (93.75%)\n" := by
  decide +kernel

example : ∀ r ∈ Demo.found.dropLast, r.index < 100000 ∧ ∃ s v, r.confidence = .fin s v ∧ 0 ≤ v ∧ v ≤ 9999 / 10000 := by
  intro r hr
  simp only [Demo.found, List.dropLast_cons₂, List.dropLast_singleton, List.mem_singleton] at hr
  subst hr
  exact ⟨by norm_num, _, _, rfl, by norm_num, by norm_num⟩

example : Legible 3 768 768 Demo.found Demo.found (cliText (.lists true Demo.found Demo.found)) :=
  prints_legible (by decide) (by decide) (Or.inr (Or.inr (Or.inl ⟨Or.inr rfl, rfl⟩)))

/-- A confidence of 100% takes one more column. -/
example : (cliCell ⟨512, .fin false 1⟩).length = 15 := by decide +kernel

end Verif.Props
