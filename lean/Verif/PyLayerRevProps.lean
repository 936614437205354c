import Verif.PyLayerProps

/-! # The scalar inputs of the functional component, in reverse: further theorems (C175) -/

namespace Verif.Py
open Finset
variable {R : ℕ}

/-- What the reverse mode leaves on rank `q` for a number. -/
theorem rev_scal (bar : ℝ) (s : ℝ) : ∀ (ps : List (Fin R)), ps.Nodup → ∀ (d : Fin R → ℝ),
    ps.foldl (fun d p => localVjp bar p (.scal s) d) (FDir.scal d) =
      .scal fun q => if q ∈ ps then d q + s * bar else d q := by
  intro ps
  induction ps with
  | nil => intro _ d; simp
  | cons p ps ih =>
    intro hn d
    rw [List.nodup_cons] at hn
    rw [List.foldl_cons]
    show List.foldl _ (FDir.scal fun q => if q = p then d q + s * bar else d q) ps = _
    rw [ih hn.2]
    congr 1
    funext q
    by_cases h1 : q = p
    · subst h1; simp [hn.1]
    · by_cases h2 : q ∈ ps <;> simp [h1, h2]

/-- **C175** For a number, every rank adds the whole derivative times the sum of the seeds: with the same seed on every rank the
increment on each rank is the number of ranks times what it should be. -/
theorem C175_scalar_reverse (bar : Fin R → ℝ) (s : ℝ) (d : Fin R → ℝ) :
    funRev bar (.scal s) (.scal d) = .scal fun q => d q + s * ∑ p, bar p := by
  unfold funRev
  simp only [allreduce_eq]
  rw [rev_scal _ _ _ (List.nodup_finRange R)]
  congr 1
  funext q
  simp

/-- **C175 is false for numbers in reverse mode on several ranks**: with the seed `b` on each of at least two ranks the increment is
not the derivative times the seed. -/
theorem C175_scalar_reverse_false (s b : ℝ) (hR : 2 ≤ R) (h : s * b ≠ 0) (d d' : Fin R → ℝ)
    (he : funRev (fun _ => b) (.scal s) (.scal d) = .scal d') (q : Fin R) : d' q ≠ d q + s * b := by
  rw [C175_scalar_reverse] at he
  obtain rfl := FDir.scal.inj he
  intro e
  have h3 : ((R : ℝ) - 1) * (s * b) = 0 := by
    simp only [sum_const, card_univ, Fintype.card_fin, nsmul_eq_mul] at e
    linear_combination e
  rcases mul_eq_zero.1 h3 with h4 | h4
  · have : (2 : ℝ) ≤ R := by exact_mod_cast hR
    linarith
  · exact h h4

example : ∃ d', funRev (R := 2) (fun _ => 1) (.scal 3) (.scal fun _ => 0) = .scal d' ∧ d' 0 = 6 :=
  ⟨_, C175_scalar_reverse _ _ _, by simp; norm_num⟩

end Verif.Py
