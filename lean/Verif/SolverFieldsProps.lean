import Verif.SolverFields
import Verif.PdeSetupProps

/-! # The fields of a magnetostatic and of a thermal solver: property theorems (C240) -/

namespace Verif.PdeSetup
open Verif.Options

/-! ### Specification -/

/-- The fields every PDE solver would have from its options: its own and the declared ones. -/
abbrev Declared (o : SpaceOpts) (mesh : Space) (dim : ℕ) (ext : List External) (f : String → Option Space) : Prop :=
  solverFields o 1 mesh dim ext = some f

theorem FieldSet.emplace_space (f : FieldSet) (n : String) (s : Space) (m : String) :
    (f.emplace n s).space m = if m = n then some ((f.space n).getD s) else f.space m := by
  unfold FieldSet.emplace
  cases h : f.space n with
  | none =>
    simp only [PdeSetup.emplace, h, and_true, Option.getD_none]
  | some x =>
    simp only [Option.getD_some]
    by_cases hm : m = n
    · subst hm; simp [h]
    · simp [hm]

theorem FieldSet.emplace_value (f : FieldSet) (n : String) (s : Space) (m : String) :
    (f.emplace n s).value m = if m = n ∧ f.space n = none then some 0 else f.value m := by
  unfold FieldSet.emplace
  cases h : f.space n with
  | none => simp [Function.update_apply]
  | some x => simp

/-- The magnetostatic constructor succeeds exactly if the options of the fields are complete. -/
theorem dgOptions_some (o : SpaceOpts) (mesh : Space) (dim : ℕ) (ext : List External) (f : String → Option Space)
    (h : Declared o mesh dim ext f) : ∃ p, o.degree = some p ∧ fieldSpace (dgOptions o) 1 dim = some ⟨⟨.l2, p, dim⟩, 1⟩ := by
  unfold Declared solverFields at h
  cases hd : o.degree with
  | none => simp [fieldSpace, hd] at h
  | some p =>
    refine ⟨p, rfl, ?_⟩
    simp [fieldSpace, dgOptions, hd, chooseColl, mkSpace]

theorem mag_eq (o : SpaceOpts) (mesh : Space) (dim : ℕ) (ext : List External) (f : String → Option Space) (h : Declared o mesh dim ext f) :
    ∃ p F, o.degree = some p ∧ magnetostaticFields o mesh dim ext = some F ∧
      F.space = (fun m => if m = "temperature" then some ((f m).getD ⟨⟨.h1, 1, dim⟩, 1⟩)
        else if m = "flux_magnitude" ∨ m = "peak_flux" then some ((f m).getD ⟨⟨.l2, p, dim⟩, 1⟩) else f m) ∧
      F.value = (fun m => if m = "temperature" then some 273.15 else if m = "flux_magnitude" ∨ m = "peak_flux" then some 0
        else (startFields f).value m) := by
  obtain ⟨p, hp, hdg⟩ := dgOptions_some o mesh dim ext f h
  unfold Declared at h
  refine ⟨p, (((if (startFields f).space "temperature" = none then (startFields f).emplace "temperature" (mkSpace none 1 1 dim)
    else startFields f).setAll "temperature" 273.15).emplace "flux_magnitude" ⟨⟨.l2, p, dim⟩, 1⟩).emplace "peak_flux" ⟨⟨.l2, p, dim⟩, 1⟩,
    hp, ?_, ?_, ?_⟩
  · unfold magnetostaticFields
    rw [h]
    simp only [hdg]
  · funext m
    by_cases ht : (startFields f).space "temperature" = none
    · have ht' : f "temperature" = none := ht
      simp only [FieldSet.emplace_space, FieldSet.setAll, if_pos ht]
      by_cases h1 : m = "peak_flux"
      · subst h1; simp [startFields]
      · by_cases h2 : m = "flux_magnitude"
        · subst h2; simp [startFields]
        · by_cases h3 : m = "temperature"
          · subst h3; simp [startFields, ht', mkSpace]
          · simp [h1, h2, h3, startFields]
    · have ht' : f "temperature" ≠ none := ht
      obtain ⟨x, hx⟩ := Option.ne_none_iff_exists'.1 ht'
      simp only [FieldSet.emplace_space, FieldSet.setAll, if_neg ht]
      by_cases h1 : m = "peak_flux"
      · subst h1; simp [startFields]
      · by_cases h2 : m = "flux_magnitude"
        · subst h2; simp [startFields]
        · by_cases h3 : m = "temperature"
          · subst h3; simp [startFields, hx]
          · simp [h1, h2, h3, startFields]
  · funext m
    by_cases ht : (startFields f).space "temperature" = none
    · have ht' : f "temperature" = none := ht
      simp only [FieldSet.emplace_value, FieldSet.emplace_space, FieldSet.setAll, if_pos ht, Function.update_apply]
      by_cases h1 : m = "peak_flux"
      · subst h1
        cases hx : f "peak_flux" <;> simp [startFields, hx]
      · by_cases h2 : m = "flux_magnitude"
        · subst h2
          cases hx : f "flux_magnitude" <;> simp [startFields, hx]
        · by_cases h3 : m = "temperature"
          · subst h3; simp
          · simp [h1, h2, h3, startFields]
    · simp only [FieldSet.emplace_value, FieldSet.emplace_space, FieldSet.setAll, if_neg ht, Function.update_apply]
      by_cases h1 : m = "peak_flux"
      · subst h1
        cases hx : f "peak_flux" <;> simp [startFields, hx]
      · by_cases h2 : m = "flux_magnitude"
        · subst h2
          cases hx : f "flux_magnitude" <;> simp [startFields, hx]
        · by_cases h3 : m = "temperature"
          · subst h3; simp
          · simp [h1, h2, h3, startFields]

/-- **C240** A magnetostatic solver has all the fields its options ask for, and besides a temperature (linear and continuous)
and two discontinuous fields of the state's degree for the flux; where the options declare one of these three, the declared
space is kept. -/
theorem C240_magnetostatic_fields (o : SpaceOpts) (mesh : Space) (dim : ℕ) (ext : List External) (f : String → Option Space)
    (h : Declared o mesh dim ext f) : ∃ p F, o.degree = some p ∧ magnetostaticFields o mesh dim ext = some F ∧
      (∀ m s, f m = some s → F.space m = some s) ∧
      (f "temperature" = none → F.space "temperature" = some ⟨⟨.h1, 1, dim⟩, 1⟩) ∧
      (∀ m, m = "flux_magnitude" ∨ m = "peak_flux" → f m = none → F.space m = some ⟨⟨.l2, p, dim⟩, 1⟩) ∧
      ∀ m, m ≠ "temperature" → m ≠ "flux_magnitude" → m ≠ "peak_flux" → F.space m = f m := by
  obtain ⟨p, F, hp, hF, hs, -⟩ := mag_eq o mesh dim ext f h
  refine ⟨p, F, hp, hF, ?_, ?_, ?_, ?_⟩
  · intro m s hm
    rw [hs]
    simp only [hm, Option.getD_some]
    split_ifs <;> rfl
  · intro ht
    rw [hs]; simp [ht]
  · intro m hm hf
    rw [hs]
    rcases hm with rfl | rfl <;> simp [hf]
  · intro m h1 h2 h3
    rw [hs]; simp [h1, h2, h3]

/-- **C240** After construction the temperature is 273.15 in every dof, the flux fields, the state, the adjoint and every
other declared field are zero. -/
theorem C240_values (o : SpaceOpts) (mesh : Space) (dim : ℕ) (ext : List External) (f : String → Option Space)
    (h : Declared o mesh dim ext f) : ∃ F, magnetostaticFields o mesh dim ext = some F ∧ F.value "temperature" = some 273.15 ∧
      ∀ m, m ≠ "temperature" → m ≠ "mesh_coords" → F.space m ≠ none → F.value m = some 0 := by
  obtain ⟨p, F, hp, hF, hs, hv⟩ := mag_eq o mesh dim ext f h
  refine ⟨F, hF, by rw [hv]; simp, fun m h1 h2 h3 => ?_⟩
  rw [hv]
  rw [hs] at h3
  simp only [h1, if_false] at h3 ⊢
  by_cases h4 : m = "flux_magnitude" ∨ m = "peak_flux"
  · simp only [h4, if_true]
  · simp only [h4, if_false] at h3 ⊢
    obtain ⟨x, hx⟩ := Option.ne_none_iff_exists'.1 h3
    simp [startFields, h2, hx]

/-- **C240** A thermal solver has all the fields its options ask for and a load on the state's own space. -/
theorem C240_thermal_fields_partial (o : SpaceOpts) (mesh : Space) (hm : mesh.coll.dim < 10) (dim : ℕ) (hd : dim < 10) (ext : List External)
    (f : String → Option Space) (h : Declared o mesh dim ext f) : ∃ F, thermalFields o mesh dim ext = some F ∧
      (∀ m s, f m = some s → F.space m = some s) ∧
      (f "thermal_load" = none → F.space "thermal_load" = f "state" ∧ F.value "thermal_load" = some 0) ∧
      ∀ m, m ≠ "thermal_load" → F.space m = f m := by
  have h0 := (C191_own_fields o 1 mesh hm dim ext f h).1
  have h' := h
  unfold Declared solverFields at h'
  cases hs : fieldSpace o 1 dim with
  | none => rw [hs] at h'; exact absurd h' (by simp)
  | some s =>
    rw [hs] at h0
    have hdim : s.coll.dim = dim := by
      unfold fieldSpace at hs
      split at hs
      · rename_i p b _ _
        cases hs
        simp only [mkSpace]
        have : ∀ c, chooseColl b (o.gd.getD false) p dim = some c → c.dim = dim := by
          intro c hc
          unfold chooseColl at hc
          split at hc
          · cases hc; rfl
          split at hc
          · cases hc; rfl
          split at hc
          · cases hc; rfl
          split at hc
          · cases hc; rfl
          split at hc
          · cases hc; rfl
          split at hc
          · cases hc; rfl
          · exact absurd hc (by simp)
        cases hc : chooseColl b (o.gd.getD false) p dim with
        | none => rfl
        | some c => exact this c hc
      · exact absurd hs (by simp)
    refine ⟨(startFields f).emplace "thermal_load" (copySpace s), ?_, ?_, ?_, ?_⟩
    · unfold thermalFields
      unfold Declared at h
      rw [h]
      simp only [← h0]
    · intro m x hx
      rw [FieldSet.emplace_space]
      by_cases e : m = "thermal_load"
      · subst e; simp [startFields, hx]
      · simp [e, startFields, hx]
    · intro ht
      rw [FieldSet.emplace_space, FieldSet.emplace_value]
      simp only [startFields, ht, if_true, Option.getD_none, and_self]
      rw [C188_copy s (by rw [hdim]; exact hd)]
      exact ⟨h0, trivial⟩
    · intro m hm
      rw [FieldSet.emplace_space]
      simp [hm, startFields]

/-- **C240** A declared "thermal_load" keeps its own space, which need not be the state's: the load of a solver with linear
states can have three components. -/
theorem C240_load_space_false : ¬∀ (o : SpaceOpts) (mesh : Space) (dim : ℕ) (ext : List External) (F : FieldSet),
    mesh.coll.dim < 10 → dim < 10 → thermalFields o mesh dim ext = some F → F.space "thermal_load" = F.space "state" := by
  intro H
  let o : SpaceOpts := ⟨some 1, some "H1", none⟩
  let ext : List External := [⟨"thermal_load", ⟨some 2, some "DG", none⟩, 3⟩]
  obtain ⟨F, hF, h1, -, -⟩ := C240_thermal_fields_partial o ⟨⟨.h1, 1, 2⟩, 2⟩ (by decide) 2 (by decide) ext _ rfl
  have e := H o ⟨⟨.h1, 1, 2⟩, 2⟩ 2 ext F (by decide) (by decide) hF
  rw [h1 "thermal_load" ⟨⟨.l2, 2, 2⟩, 3⟩ (by decide), h1 "state" ⟨⟨.h1, 1, 2⟩, 1⟩ (by decide)] at e
  exact absurd e (by decide)

/-- A case of the hypotheses: a declared temperature of degree two next to the state of degree one. -/
example : ∃ f, Declared ⟨some 1, some "nedelec", none⟩ ⟨⟨.h1, 1, 3⟩, 3⟩ 3 [⟨"temperature", ⟨some 2, some "H1", none⟩, 1⟩] f ∧
    f "temperature" = some ⟨⟨.h1, 2, 3⟩, 1⟩ ∧ f "peak_flux" = none := ⟨_, rfl, by decide, by decide⟩

end Verif.PdeSetup
