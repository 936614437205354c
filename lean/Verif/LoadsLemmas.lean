import Verif.Loads
import Mathlib.Algebra.Field.Basic
import Mathlib.Tactic.Common

/-! Helper lemmas for `Verif.LoadsProps`. -/

namespace Verif.Loads

open Verif.Inputs

variable {K : Type} {n : ℕ}

/-- No vector is stored under any key. -/
def AllScalar (inputs : Inputs K) : Prop := ∀ k v, inputs k ≠ some (.vec v)

/-- The scalar stored under `key`, else `old`. -/
def scalarOr (inputs : Inputs K) (key : String) (old : K) : K :=
  match inputs key with
  | some (.val x) => x
  | _ => old

theorem svi_ok {inputs : Inputs K} (h : AllScalar inputs) (k : String) (x : K) :
    setValueFromInputs inputs k x false = .ok (scalarOr inputs k x) := by
  unfold setValueFromInputs scalarOr
  cases hk : inputs k with
  | none => simp
  | some v =>
    cases v with
    | val y => simp [setValueFromInput]
    | vec v => exact absurd hk (h k v)

theorem loop_cache (ks : List String) (d : Density K) (h : ∀ k ∈ ks, k ∈ d.ckeys) :
    loop (fun (d : Density K) k => if k ∈ d.ckeys then ({ d with c := Function.update d.c k (d.g k) }, true) else (d, false)) ks d
      = ({ d with c := fun k => if k ∈ ks then d.g k else d.c k }, true) := by
  induction ks generalizing d with
  | nil => simp [loop]
  | cons k ks ih =>
    rw [loop]
    simp only [h k (by simp), if_true]
    rw [ih]
    · congr 2
      funext j
      by_cases hj : j ∈ ks
      · simp [hj]
      · by_cases hk : j = k
        · subst hk; simp [hj]
        · simp [hj, hk]
    · intro j hj; exact h j (List.mem_cons_of_mem _ hj)

theorem loop_zero [Zero K] (ks : List String) (d : Density K) :
    loop (fun (d : Density K) k => ({ d with g := Function.update d.g k 0 }, true)) ks d
      = ({ d with g := fun k => if k ∈ ks then 0 else d.g k }, true) := by
  induction ks generalizing d with
  | nil => simp [loop]
  | cons k ks ih =>
    rw [loop]
    simp only
    rw [ih]
    congr 2
    funext j
    by_cases hj : j ∈ ks
    · simp [hj]
    · by_cases hk : j = k
      · subst hk; simp [hj]
      · simp [hj, hk]

theorem loop_reset (ks : List String) (d : Density K) (h : ∀ k ∈ ks, k ∈ d.gkeys) :
    loop (fun (d : Density K) k => if k ∈ d.gkeys then ({ d with g := Function.update d.g k (d.c k) }, true) else (d, false)) ks d
      = ({ d with g := fun k => if k ∈ ks then d.c k else d.g k }, true) := by
  induction ks generalizing d with
  | nil => simp [loop]
  | cons k ks ih =>
    rw [loop]
    simp only [h k (by simp), if_true]
    rw [ih]
    · congr 2
      funext j
      by_cases hj : j ∈ ks
      · simp [hj]
      · by_cases hk : j = k
        · subst hk; simp [hj]
        · simp [hj, hk]
    · intro j hj; exact h j (List.mem_cons_of_mem _ hj)

theorem loop_setg [DecidableEq K] {inputs : Inputs K} (hs : AllScalar inputs) (ks : List String) (hnd : ks.Nodup) (s : Density K × Bool) :
    ∃ b, loop (setGroup inputs) ks s
      = (({ s.1 with g := fun k => if k ∈ ks then scalarOr inputs (cdKey k) (s.1.g k) else s.1.g k }, b), true)
      ∧ (b = false → s.2 = false ∧ ∀ k ∈ ks, scalarOr inputs (cdKey k) (s.1.g k) = s.1.g k) := by
  induction ks generalizing s with
  | nil => exact ⟨s.2, by simp [loop], fun h => ⟨h, by simp⟩⟩
  | cons k ks ih =>
    have hk : k ∉ ks := (List.nodup_cons.1 hnd).1
    rw [loop]
    simp only [setGroup, svi_ok hs]
    obtain ⟨b, h1, h2⟩ := ih (List.nodup_cons.1 hnd).2
      ({ s.1 with g := Function.update s.1.g k (scalarOr inputs (cdKey k) (s.1.g k)) }, s.2 || decide (scalarOr inputs (cdKey k) (s.1.g k) ≠ s.1.g k))
    refine ⟨b, ?_, ?_⟩
    · rw [h1]
      simp only
      congr 3
      funext j
      by_cases hj : j = k
      · subst hj; simp [hk]
      · simp [hj]
    · intro hb
      obtain ⟨h3, h4⟩ := h2 hb
      simp only [Bool.or_eq_false_iff, decide_eq_false_iff_not, not_not] at h3
      refine ⟨h3.1, ?_⟩
      intro j hj
      rcases List.mem_cons.1 hj with rfl | hj
      · exact h3.2
      · have := h4 j hj
        have hjk : j ≠ k := fun e => hk (e ▸ hj)
        simpa [hjk] using this

theorem loop_setc [DecidableEq K] {inputs : Inputs K} (hs : AllScalar inputs) (ks : List String) (s : Density K × Bool) :
    ∃ b c', loop (setCached inputs) ks s
      = (({ s.1 with c := c' }, b), true) ∧ (b = false → s.2 = false) := by
  induction ks generalizing s with
  | nil => exact ⟨s.2, s.1.c, by simp [loop], id⟩
  | cons k ks ih =>
    rw [loop]
    simp only [setCached, svi_ok hs]
    obtain ⟨b, c', h1, h2⟩ := ih ({ s.1 with c := Function.update s.1.c k (scalarOr inputs k (s.1.c k)) }, s.2 || decide (scalarOr inputs k (s.1.c k) ≠ s.1.c k))
    refine ⟨b, c', h1, fun hb => ?_⟩
    have := h2 hb
    simp only [Bool.or_eq_false_iff] at this
    exact this.1

theorem setInputs_spec [DecidableEq K] {inputs : Inputs K} (hs : AllScalar inputs) (d : Density K) (hnd : d.gkeys.Nodup) :
    ∃ b c', d.setInputs inputs
      = ({ d with g := fun k => if k ∈ d.gkeys then scalarOr inputs (cdKey k) (d.g k) else d.g k, c := c' }, b, true)
      ∧ (b = false → ∀ k ∈ d.gkeys, scalarOr inputs (cdKey k) (d.g k) = d.g k) := by
  obtain ⟨b1, h1, h1'⟩ := loop_setg hs d.gkeys hnd (d, false)
  obtain ⟨b2, c', h2, h2'⟩ := loop_setc hs d.ckeys
    ({ d with g := fun k => if k ∈ d.gkeys then scalarOr inputs (cdKey k) (d.g k) else d.g k }, b1)
  refine ⟨b2, c', ?_, fun hb => (h1' (h2' hb)).2⟩
  unfold Density.setInputs
  simp only [h1]
  simp only [h2]

theorem cache_spec (d : Density K) (h : ∀ k ∈ d.gkeys, k ∈ d.ckeys) :
    d.cache = ({ d with c := fun k => if k ∈ d.gkeys then d.g k else d.c k }, true) := loop_cache _ _ h

theorem zero_spec [Zero K] (d : Density K) : d.zero = { d with g := fun k => if k ∈ d.gkeys then 0 else d.g k } := by
  unfold Density.zero; rw [loop_zero]

theorem reset_spec (d : Density K) (h : ∀ k ∈ d.ckeys, k ∈ d.gkeys) :
    d.reset = ({ d with g := fun k => if k ∈ d.ckeys then d.c k else d.g k }, true) := loop_reset _ _ h

end Verif.Loads
