import Verif.Spec.EndToEnd

/-! # What a series of pictures shows, in exact arithmetic -/

namespace Verif.Spec

/-- The picture given by luma samples of `depth` bits: column `i`, row `j`, from black 0 to white 1. -/
noncomputable def lumaPicture (W depth : ℕ) (samples : List ℕ) (i j : ℕ) : ℝ := (((samples[j * W + i]?).getD 0 : ℕ) : ℝ) / (2 ^ depth - 1)

/-- The pictures differ by at most `δ`. -/
def Near (δ : ℝ) (W H : ℕ) (picture other : ℕ → ℕ → ℝ) : Prop := ∀ i j, i < W → j < H → |picture i j - other i j| ≤ δ

/-- The samples of the frame are numbers up to `B`, and at most `e` away from the picture. -/
def Depicts (B e : ℝ) (W H : ℕ) (frame : List Fl) (picture : ℕ → ℕ → ℝ) : Prop :=
  Sampled B W H frame ∧ Near e W H (pixel W frame) picture

/-- The mean over several spectra of the share of opposite pairs. -/
noncomputable def meanShare (Xs : List (ℕ → ℕ → ℝ)) (n range N : ℕ) : ℚ := (Xs.map (fun X => share X n range N)).sum / Xs.length

/-- Both coefficients of the pair (line, distance from `N`) are clear, that is at least `d`. -/
def ClearPair (d : ℝ) (X : ℕ → ℕ → ℝ) (N : ℕ) (p : ℕ × ℕ) : Prop := d ≤ |X p.1 (N - p.2)| ∧ d ≤ |X p.1 (N + p.2)|

open Classical in
/-- The share of the pairs that are clear and opposite. -/
noncomputable def sureShare (d : ℝ) (X : ℕ → ℕ → ℝ) (n range N : ℕ) : ℚ :=
  ((Finset.range n ×ˢ Finset.Icc 1 range).filter (fun p => ClearPair d X N p ∧ X p.1 (N - p.2) * X p.1 (N + p.2) < 0)).card / (n * range)

open Classical in
/-- The share of the pairs that are opposite or not clear. -/
noncomputable def possibleShare (d : ℝ) (X : ℕ → ℕ → ℝ) (n range N : ℕ) : ℚ :=
  ((Finset.range n ×ˢ Finset.Icc 1 range).filter (fun p => ClearPair d X N p → X p.1 (N - p.2) * X p.1 (N + p.2) < 0)).card / (n * range)

/-- Their means over several spectra. -/
noncomputable def meanSure (d : ℝ) (Xs : List (ℕ → ℕ → ℝ)) (n range N : ℕ) : ℚ := (Xs.map (fun X => sureShare d X n range N)).sum / Xs.length

@[inherit_doc meanSure]
noncomputable def meanPossible (d : ℝ) (Xs : List (ℕ → ℕ → ℝ)) (n range N : ℕ) : ℚ := (Xs.map (fun X => possibleShare d X n range N)).sum / Xs.length

/-- The list `l` for one dimension, of length `len`, is what exact arithmetic gives for spectra `Xs` whose coefficients are known up to `d`, with
errors of `ε` in means and `ε'` in confidences.  It ends with the length itself; before come sizes at least `range` away from both ends, by
descending confidence, each once.  A size is listed if the mean of the sure shares exceeds the threshold by `ε`, only if that of the possible
shares is not smaller by more than `ε`, and with a confidence between these means, up to `ε'`.  If in all spectra the sure and the possible share lie
between the same two `float`s, so does the confidence, and there is no error in the comparison with the threshold. -/
structure MeanList (d : ℝ) (ε ε' t : ℚ) (range len n : ℕ) (Xs : List (ℕ → ℕ → ℝ)) (l : List Res) : Prop where
  sorted : Descending l
  parts : ∃ init, l = init ++ [⟨len, .fin true (-1)⟩] ∧ (init.map Res.index).Nodup ∧ ∀ r ∈ init, range ≤ r.index ∧ r.index + range < len
  listed : ∀ N, range ≤ N → N + range < len → t + ε ≤ meanSure d Xs n range N → ∃ c, (⟨N, c⟩ : Res) ∈ l
  entries : ∀ N, range ≤ N → N + range < len → ∀ c, (⟨N, c⟩ : Res) ∈ l →
    t ≤ meanPossible d Xs n range N + ε ∧ ∃ v, c = .fin false v ∧ meanSure d Xs n range N - ε' ≤ v ∧ v ≤ meanPossible d Xs n range N + ε'
  between : ∀ N, range ≤ N → N + range < len → ∀ lo hi, 0 ≤ lo → hi ≤ 1 → binary32.rnd lo = lo → binary32.rnd hi = hi →
    (∀ X ∈ Xs, lo ≤ sureShare d X n range N ∧ possibleShare d X n range N ≤ hi) →
    (∀ c, (⟨N, c⟩ : Res) ∈ l → ∃ v, c = .fin false v ∧ lo ≤ v ∧ v ≤ hi) ∧ (t ≤ lo → ∃ c, (⟨N, c⟩ : Res) ∈ l) ∧ (hi < t → ∀ c, (⟨N, c⟩ : Res) ∉ l)

end Verif.Spec
