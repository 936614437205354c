import Verif.PdeSetup
import Verif.OptionsProps
import Mathlib.Tactic.Ring
import Mathlib.Tactic.Linarith
import Mathlib.Tactic.FinCases
import Mathlib.Tactic.IntervalCases
import Mathlib.Tactic.Tauto
import Mathlib.Tactic.NormNum
import Mathlib.Algebra.BigOperators.Fin
import Mathlib.Algebra.BigOperators.Ring.Finset
import Mathlib.Algebra.Order.BigOperators.Group.Finset
import Mathlib.Algebra.BigOperators.GroupWithZero.Action

/-! # Setting up a PDE solver: property theorems (C187–C192) -/

set_option linter.unusedSimpArgs false

namespace Verif.PdeSetup

open Verif.Options Verif.StateFiles
open scoped BigOperators

/-! ### C187 The space of a field -/

/-- The documented spellings of the basis types. -/
def spellings : Kind → List String
  | .csbp => ["CSBP", "csbp"]
  | .dsbp => ["DSBP", "dsbp"]
  | .nd => ["ND", "nd", "nedelec"]
  | .rt => ["RT", "rt"]
  | .h1 => ["H1", "h1", "CG", "cg"]
  | .l2 => ["L2", "l2", "DG", "dg"]

/-- **C187** A field whose options name a basis type by one of its spellings, without Galerkin difference, gets exactly that kind of space,
of the requested degree, the dimension of the mesh and the requested number of components. -/
theorem C187_selected (k : Kind) (b : String) (hb : b ∈ spellings k) (p : ℤ) (g : Option Bool) (hg : g ≠ some true) (v : ℤ) (dim : ℕ) :
    fieldSpace ⟨some p, some b, g⟩ v dim = some ⟨⟨k, p, dim⟩, v⟩ := by
  have hg' : g.getD false = false := by
    rcases g with _ | _ | _ <;> first | rfl | exact absurd rfl hg
  have key : ∀ b ∈ spellings k, fieldSpace ⟨some p, some b, g⟩ v dim = some ⟨⟨k, p, dim⟩, v⟩ := by
    cases k <;> simp [spellings, fieldSpace, mkSpace, chooseColl, hg']
  exact key b hb

/-- **C187** With Galerkin difference switched on, every basis type except the continuous SBP one gives the discontinuous SBP space. -/
theorem C187_galerkin_difference (b : String) (hb : b ∉ spellings .csbp) (p v : ℤ) (dim : ℕ) :
    fieldSpace ⟨some p, some b, some true⟩ v dim = some ⟨⟨.dsbp, p, dim⟩, v⟩ := by
  simp only [spellings, List.mem_cons, List.not_mem_nil, or_false, not_or] at hb
  simp [fieldSpace, mkSpace, chooseColl, hb.1, hb.2]

/-- **C187** fails for other names: a basis type that is no known spelling is not rejected, the field is silently built on a continuous
H1 space. -/
theorem C187_unknown_false (b : String) (hb : ∀ k, b ∉ spellings k) (p : ℤ) (g : Option Bool) (hg : g ≠ some true) (v : ℤ) (dim : ℕ) :
    fieldSpace ⟨some p, some b, g⟩ v dim = some ⟨⟨.h1, p, dim⟩, v⟩ := by
  have hg' : g.getD false = false := by
    rcases g with _ | _ | _ <;> first | rfl | exact absurd rfl hg
  have h := fun k => hb k
  have h1 := h .csbp; have h2 := h .dsbp; have h3 := h .nd; have h4 := h .rt; have h5 := h .h1; have h6 := h .l2
  simp only [spellings, List.mem_cons, List.not_mem_nil, or_false, not_or] at h1 h2 h3 h4 h5 h6
  simp [fieldSpace, mkSpace, chooseColl, hg', h1.1, h1.2, h2.1, h2.2, h3.1, h3.2.1, h3.2.2, h4.1, h4.2, h5.1, h5.2.1, h5.2.2.1, h5.2.2.2,
    h6.1, h6.2.1, h6.2.2.1, h6.2.2.2]

/-- **C187** Without a degree or a basis type no field is built. -/
theorem C187_incomplete (o : SpaceOpts) (h : o.degree = none ∨ o.basisType = none) (v : ℤ) (dim : ℕ) : fieldSpace o v dim = none := by
  unfold fieldSpace
  rcases h with h | h
  · rw [h]
  · rw [h]
    cases o.degree <;> rfl

/-- The capitalised spelling of an accepted name is one of the unknown ones. -/
example : (∀ k, "Nedelec" ∉ spellings k) ∧ fieldSpace ⟨some 2, some "Nedelec", none⟩ 1 3 = some ⟨⟨.h1, 2, 3⟩, 1⟩ ∧
    fieldSpace ⟨some 2, some "nedelec", none⟩ 1 3 = some ⟨⟨.nd, 2, 3⟩, 1⟩ := by
  refine ⟨fun k => ?_, ?_, ?_⟩
  · cases k <;> decide
  · decide
  · decide

/-! ### C188 Copied spaces -/

theorem digitChar_facts : ∀ d < 10, (Nat.digitChar d).isDigit = true ∧ (Nat.digitChar d).toNat - 48 = d := by decide

theorem atoiDigits_app (l : List ℕ) (hl : ∀ d ∈ l, d < 10) : ∀ (acc : ℕ) (rest : List Char),
    (∀ c ∈ rest.head?, c.isDigit = false) →
    atoiDigits acc (l.map Nat.digitChar ++ rest) = l.foldl (fun a d => 10 * a + d) acc := by
  induction l with
  | nil =>
    intro acc rest h
    cases rest with
    | nil => rfl
    | cons c cs => simp [atoiDigits, h c (by simp)]
  | cons d l ih =>
    intro acc rest h
    have hd := digitChar_facts d (hl d (by simp))
    simp only [List.map_cons, List.cons_append, atoiDigits, hd.1, if_true, hd.2, List.foldl_cons]
    exact ih (fun e he => hl e (by simp [he])) _ rest h

theorem foldl_digits (l : List ℕ) : l.reverse.foldl (fun a d => 10 * a + d) 0 = Nat.ofDigits 10 l := by
  induction l with
  | nil => rfl
  | cons d l ih =>
    simp only [List.reverse_cons, List.foldl_append, List.foldl_cons, List.foldl_nil, ih, Nat.ofDigits_cons]
    ring

theorem atoiDigits_nat (n : ℕ) (rest : List Char) (h : ∀ c ∈ rest.head?, c.isDigit = false) :
    atoiDigits 0 (natToString n ++ rest) = n := by
  unfold natToString
  split
  · rename_i h0
    have := atoiDigits_app [0] (by simp) 0 rest h
    rw [h0]
    exact this
  · rw [atoiDigits_app _ (fun d hd => Nat.digits_lt_base (by norm_num) (List.mem_reverse.mp hd)) 0 rest h, foldl_digits,
      Nat.ofDigits_digits]

theorem natToString_head (n : ℕ) : ∃ c cs, natToString n = c :: cs ∧ c.isDigit = true := by
  unfold natToString
  split
  · exact ⟨'0', [], rfl, by decide⟩
  · rename_i h
    have hne : (Nat.digits 10 n).reverse ≠ [] := by simpa using Nat.digits_ne_nil_iff_ne_zero.mpr h
    cases hl : (Nat.digits 10 n).reverse with
    | nil => exact absurd hl hne
    | cons d l =>
      refine ⟨Nat.digitChar d, l.map Nat.digitChar, by simp, (digitChar_facts d ?_).1⟩
      exact Nat.digits_lt_base (by norm_num) (List.mem_reverse.mp (by rw [hl]; simp))

theorem atoi_int (z : ℤ) (rest : List Char) (h : ∀ c ∈ rest.head?, c.isDigit = false) : atoi (intToString z ++ rest) = z := by
  cases z with
  | ofNat n =>
    obtain ⟨c, cs, hc, hd⟩ := natToString_head n
    have key := atoiDigits_nat n rest h
    simp only [intToString] at *
    rw [hc] at key ⊢
    simp only [List.cons_append] at key ⊢
    unfold atoi
    split
    · rename_i heq
      simp only [List.cons.injEq] at heq
      rw [heq.1] at hd
      exact absurd hd (by decide)
    · rename_i heq
      simp only [List.cons.injEq] at heq
      rw [heq.1] at hd
      exact absurd hd (by decide)
    · rw [key]
      rfl
  | negSucc n =>
    have key := atoiDigits_nat (n + 1) rest h
    simp only [intToString, List.cons_append, atoi, key]
    rfl

theorem natToString_small : ∀ d < 10, natToString d = [Nat.digitChar d] := by
  intro d hd
  interval_cases d <;> rfl

/-- **C188** A field built on the space of another field (the mesh coordinates, the thermal load) has the same kind of space, of the same degree
and dimension and with the same number of components: the degree and dimension read back from the collection's name are the original ones, for
every degree and every dimension with one digit. -/
theorem C188_copy (s : Space) (hd : s.coll.dim < 10) : copySpace s = s := by
  obtain ⟨⟨k, p, d⟩, v⟩ := s
  have hd' : intToString (d : ℤ) = [Nat.digitChar d] := natToString_small d hd
  have hp : ∀ z : ℤ, atoi (intToString z) = z := fun z => by
    have := atoi_int z [] (by simp)
    simpa using this
  have hdim : ∀ rest : List Char, atoi (Nat.digitChar d :: 'D' :: rest) = d := fun rest => by
    have := atoi_int (d : ℤ) ('D' :: rest) (by simp)
    rw [hd'] at this
    simpa using this
  cases k <;> simp [copySpace, copyColl, sbpName, hd', hp, hdim]

/-- Degrees with several digits survive, as do negative ones. -/
example : copySpace ⟨⟨.dsbp, 12, 3⟩, 5⟩ = ⟨⟨.dsbp, 12, 3⟩, 5⟩ := C188_copy _ (by decide)

example : sbpName ['S', 'B', 'P'] 2 4 = "SBP_2D_P4".toList := by
  have h2 : intToString (2 : ℤ) = ['2'] := natToString_small 2 (by norm_num)
  have h4 : intToString (4 : ℤ) = ['4'] := natToString_small 4 (by norm_num)
  simp [sbpName, h2, h4]

/-! ### C189 Shared degrees of freedom -/

section transfer
variable {K : Type} [CommRing K] {L T : ℕ} (y : Layout K L T)

/-- Inner product. -/
def dot {n : ℕ} (a b : Fin n → K) : K := ∑ i, a i * b i

/-- **C189** Sending a true vector to a state field and reading it back gives the same vector. -/
theorem C189_state_roundtrip (t : Fin T → K) : y.stateTrue (y.stateDistribute t) = t := by
  funext i
  simp only [Layout.stateTrue, Layout.stateDistribute, y.owned, y.ownSign, one_mul]

/-- **C189** The same holds for dual (residual) vectors. -/
theorem C189_dual_roundtrip (t : Fin T → K) : y.dualTrue (y.dualDistribute t) = t := by
  funext s
  simp only [Layout.dualTrue, Layout.dualDistribute]
  have key : ∀ i, (if y.glob i = s then y.sign i * ∑ s', (if y.owner s' = i then t s' else 0) else 0) =
      if y.owner s = i then t s else 0 := by
    intro i
    by_cases h : y.glob i = s
    · rw [if_pos h]
      rw [Finset.sum_eq_single s]
      · by_cases h2 : y.owner s = i
        · rw [if_pos h2, ← h2, y.ownSign, one_mul]
        · rw [if_neg h2, mul_zero]
      · intro s' _ hs'
        refine if_neg fun e => hs' ?_
        rw [← y.owned s', e, h]
      · intro h0; exact absurd (Finset.mem_univ _) h0
    · rw [if_neg h, if_neg]
      intro e
      exact h (by rw [← e, y.owned])
  rw [Finset.sum_congr rfl fun i _ => key i, Finset.sum_ite_eq]
  exact if_pos (Finset.mem_univ _)

/-- **C189** After a true vector has been sent to a state, all ranks hold the same value of a shared dof (up to its orientation). -/
theorem C189_copies_agree (t : Fin T → K) (i j : Fin L) (h : y.glob i = y.glob j) :
    y.sign i * y.stateDistribute t i = y.sign j * y.stateDistribute t j := by
  simp only [Layout.stateDistribute, ← mul_assoc, y.signSq, one_mul, h]

/-- **C189** A local dual vector and its assembled true vector do the same work on every state: nothing contributed by any rank is lost and nothing
counted twice. -/
theorem C189_work (x : Fin L → K) (t : Fin T → K) : dot (y.dualTrue x) t = dot x (y.stateDistribute t) := by
  simp only [dot, Layout.dualTrue, Layout.stateDistribute, Finset.sum_mul]
  rw [Finset.sum_comm]
  refine Finset.sum_congr rfl fun i _ => ?_
  rw [Finset.sum_eq_single (y.glob i)]
  · rw [if_pos rfl]; ring
  · intro s _ hs
    rw [if_neg (Ne.symm hs), zero_mul]
  · intro h; exact absurd (Finset.mem_univ _) h

/-- **C189** Likewise for a true dual vector sent to the ranks, paired with any local state. -/
theorem C189_work_distributed (t : Fin T → K) (x : Fin L → K) : dot (y.dualDistribute t) x = dot t (y.stateTrue x) := by
  simp only [dot, Layout.dualDistribute, Layout.stateTrue, Finset.sum_mul]
  rw [Finset.sum_comm]
  refine Finset.sum_congr rfl fun s _ => ?_
  rw [Finset.sum_eq_single (y.owner s)]
  · rw [if_pos rfl]
  · intro i _ hi
    rw [if_neg (Ne.symm hi), zero_mul]
  · intro h; exact absurd (Finset.mem_univ _) h

end transfer

/-- Two ranks sharing dof 1, the second holding it with the opposite orientation. -/
def twoRanks : Layout ℚ 4 3 where
  glob := ![0, 1, 1, 2]
  sign := ![1, 1, -1, 1]
  owner := ![0, 1, 3]
  signSq := by decide +kernel
  owned := by decide
  ownSign := by decide +kernel

/-- The shared dof collects both contributions in a dual, and reaches both ranks in a state. -/
example : twoRanks.dualTrue ![1, 10, 100, 1000] = ![1, -90, 1000] ∧ twoRanks.stateDistribute ![5, 6, 7] = ![5, 6, -6, 7] ∧
    dot (twoRanks.dualTrue ![1, 10, 100, 1000]) ![5, 6, 7] = dot ![1, 10, 100, 1000] (twoRanks.stateDistribute ![5, 6, 7]) := by
  decide +kernel

/-- **C189** fails in the other direction for duals: distributing the assembled vector does not restore the ranks' contributions. -/
theorem C189_local_dual_false : ∃ (y : Layout ℚ 4 3) (x : Fin 4 → ℚ), y.dualDistribute (y.dualTrue x) ≠ x :=
  ⟨twoRanks, ![1, 10, 100, 1000], by decide +kernel⟩

/-! ### C190 Materials -/

theorem addMaterial_inline (lib : Json) (n : String) (m : Fields) :
    addMaterial lib (.inline n m) = solverOptions lib (.obj (.cons n (.obj m) .nil)) := by
  simp [addMaterial, solverOptions, merge, mergeFields, Json.isNull]

/-- The component gives no value at `ks` for the material `n`. -/
def Quiet (n : String) (ks : List String) : Material → Prop
  | .byName _ => True
  | .inline n' m => n' = n → Silent (.obj m) ks

/-- The inline material is a proper JSON object (unique keys). -/
def MatWF : Material → Prop
  | .byName _ => True
  | .inline _ m => m.WF

theorem add_quiet (lib : Json) (c : Material) (hw : MatWF c) (n : String) (ks : List String) (h : Quiet n ks c) :
    (addMaterial lib c).at (n :: ks) = lib.at (n :: ks) := by
  cases c with
  | byName _ => rfl
  | inline n' m =>
    rw [addMaterial_inline]
    refine C26_unspecified_kept (n :: ks) lib _ ?_ ?_
    · exact .obj _ (.cons _ _ _ (by simp [Fields.keys]) (.obj _ hw) .nil)
    · by_cases e : n' = n
      · simpa [Silent, Fields.get, e] using h e
      · simp [Silent, Fields.get, e]

theorem fold_quiet (cs : List Material) (n : String) (ks : List String) : ∀ lib : Json, (∀ c ∈ cs, MatWF c) → (∀ c ∈ cs, Quiet n ks c) →
    (solverMaterials lib cs).at (n :: ks) = lib.at (n :: ks) := by
  induction cs with
  | nil => intro lib _ _; rfl
  | cons c cs ih =>
    intro lib hw h
    show (solverMaterials (addMaterial lib c) cs).at (n :: ks) = _
    rw [ih _ (fun d hd => hw d (by simp [hd])) (fun d hd => h d (by simp [hd])), add_quiet lib c (hw c (by simp)) n ks (h c (by simp))]

/-- **C190** A material property that no component sets is the library's. -/
theorem C190_library (lib : Json) (cs : List Material) (hw : ∀ c ∈ cs, MatWF c) (n : String) (ks : List String)
    (h : ∀ c ∈ cs, Quiet n ks c) : (solverMaterials lib cs).at (n :: ks) = lib.at (n :: ks) := fold_quiet cs n ks lib hw h

/-- **C190** A material property set inside a component is what the solver uses, provided no later component sets it for the same material. -/
theorem C190_component (lib : Json) (pre post : List Material) (n : String) (m : Fields) (hm : m.WF) (hw : ∀ c ∈ post, MatWF c)
    (ks : List String) (v : String) (hv : (Json.obj m).at ks = some (.leaf v)) (h : ∀ c ∈ post, Quiet n ks c) :
    (solverMaterials lib (pre ++ .inline n m :: post)).at (n :: ks) = some (.leaf v) := by
  rw [show solverMaterials lib (pre ++ .inline n m :: post) =
    solverMaterials (addMaterial (solverMaterials lib pre) (.inline n m)) post by simp [solverMaterials]]
  rw [fold_quiet post n ks _ hw h, addMaterial_inline]
  refine C26_specified_wins (n :: ks) _ _ ?_ v ?_
  · exact .obj _ (.cons _ _ _ (by simp [Fields.keys]) (.obj _ hm) .nil)
  · simpa [Json.at, Fields.get] using hv

/-- **C190** fails for each component on its own: materials are kept per material name, so a component's value is lost when a later component gives
another value for the same material. -/
theorem C190_own_value_false (lib : Json) (n k : String) (v w : String) :
    (solverMaterials lib [.inline n (.cons k (.leaf v) .nil), .inline n (.cons k (.leaf w) .nil)]).at [n, k] = some (.leaf w) := by
  have hwf : (Fields.cons k (.leaf w) .nil).WF := .cons _ _ _ (by simp [Fields.keys]) (.leaf _) .nil
  exact C190_component lib [.inline n (.cons k (.leaf v) .nil)] [] n _ hwf (by simp) [k] w (by simp [Json.at, Fields.get]) (by simp)

/-- **C190** fails for solvers whose number of states depends on the mesh (the flow solvers): whatever their components say, their materials are the
library's. -/
theorem C190_flow_false (lib : Json) (cs : List Material) : solverMaterialsFun lib cs = lib := rfl

/-- A library material with one property overridden by the first component, kept for the second component that only names it. -/
example : (solverMaterials (.obj (.cons "iron" (.obj (.cons "rho" (.leaf "7650") (.cons "kappa" (.leaf "20") .nil))) .nil))
      [.inline "iron" (.cons "kappa" (.leaf "25") .nil), .byName "iron"]).at ["iron", "kappa"] = some (.leaf "25") ∧
    (solverMaterials (.obj (.cons "iron" (.obj (.cons "rho" (.leaf "7650") (.cons "kappa" (.leaf "20") .nil))) .nil))
      [.inline "iron" (.cons "kappa" (.leaf "25") .nil), .byName "iron"]).at ["iron", "rho"] = some (.leaf "7650") := by
  constructor <;>
    simp [solverMaterials, addMaterial, merge, mergeFields, Json.members, Fields.get, Fields.put, Json.at, Json.isNull]

/-! ### C191 Fields -/

theorem emplace_keeps (f : String → Option Space) (n m : String) (s : Space) (x : Space) (h : f m = some x) : emplace f n s m = some x := by
  unfold emplace
  rw [if_neg, h]
  rintro ⟨rfl, h0⟩
  rw [h] at h0
  exact absurd h0 (by simp)

theorem addExternal_keeps (dim : ℕ) (es : List External) : ∀ (f g : String → Option Space), addExternal dim es f = some g →
    ∀ m x, f m = some x → g m = some x := by
  induction es with
  | nil => intro f g h m x hx; cases h; exact hx
  | cons e es ih =>
    intro f g h m x hx
    simp only [addExternal] at h
    cases hs : fieldSpace e.opts e.numStates dim with
    | none => rw [hs] at h; exact absurd h (by simp)
    | some s =>
      rw [hs] at h
      exact ih _ g h m x (emplace_keeps f e.name m s x hx)

theorem addExternal_new (dim : ℕ) (es : List External) : ∀ (f g : String → Option Space), addExternal dim es f = some g →
    ∀ m, f m = none → (∀ e ∈ es, e.name ≠ m) → g m = none := by
  induction es with
  | nil => intro f g h m hm _; cases h; exact hm
  | cons e es ih =>
    intro f g h m hm hne
    simp only [addExternal] at h
    cases hs : fieldSpace e.opts e.numStates dim with
    | none => rw [hs] at h; exact absurd h (by simp)
    | some s =>
      rw [hs] at h
      refine ih _ g h m ?_ fun e' he' => hne e' (by simp [he'])
      unfold emplace
      rw [if_neg fun hc => hne e (by simp) hc.1.symm, hm]

/-- The names the solver itself uses. -/
def reserved : List String := ["state", "dirichlet_bc", "adjoint", "mesh_coords"]

theorem base_fields (s c : Space) :
    let f := emplace (emplace (emplace (emplace (fun _ => none) "state" s) "dirichlet_bc" s) "adjoint" s) "mesh_coords" c
    f "state" = some s ∧ f "dirichlet_bc" = some s ∧ f "adjoint" = some s ∧ f "mesh_coords" = some c ∧ ∀ m, m ∉ reserved → f m = none := by
  refine ⟨by simp [emplace], by simp [emplace], by simp [emplace], by simp [emplace], fun m hm => ?_⟩
  simp only [reserved, List.mem_cons, List.not_mem_nil, or_false, not_or] at hm
  simp [emplace, hm.1, hm.2.1, hm.2.2.1, hm.2.2.2]

/-- **C191** Every solver has its state, its Dirichlet values and its adjoint on the space of "space-dis" and the mesh coordinates on the mesh's own
space, whatever external fields are declared. -/
theorem C191_own_fields (o : SpaceOpts) (ns : ℤ) (mesh : Space) (hm : mesh.coll.dim < 10) (dim : ℕ) (ext : List External)
    (f : String → Option Space) (h : solverFields o ns mesh dim ext = some f) :
    fieldSpace o ns dim = f "state" ∧ f "dirichlet_bc" = f "state" ∧ f "adjoint" = f "state" ∧ f "mesh_coords" = some mesh := by
  unfold solverFields at h
  cases hs : fieldSpace o ns dim with
  | none => rw [hs] at h; exact absurd h (by simp)
  | some s =>
    rw [hs] at h
    have hb := base_fields s (copySpace mesh)
    have hk := addExternal_keeps dim ext _ f h
    rw [hk _ _ hb.1, hk _ _ hb.2.1, hk _ _ hb.2.2.1, hk _ _ hb.2.2.2.1, C188_copy mesh hm]
    exact ⟨rfl, rfl, rfl, rfl⟩

/-- **C191** A declared external field exists, with the space its own options ask for, unless its name is one of the solver's own or was already
declared; and nothing else exists. -/
theorem C191_external (o : SpaceOpts) (ns : ℤ) (mesh : Space) (dim : ℕ) (pre post : List External) (e : External)
    (f : String → Option Space) (h : solverFields o ns mesh dim (pre ++ e :: post) = some f) (hr : e.name ∉ reserved)
    (hp : ∀ e' ∈ pre, e'.name ≠ e.name) : f e.name = fieldSpace e.opts e.numStates dim ∧ (fieldSpace e.opts e.numStates dim).isSome := by
  unfold solverFields at h
  cases hs : fieldSpace o ns dim with
  | none => rw [hs] at h; exact absurd h (by simp)
  | some s =>
    rw [hs] at h
    have hb := (base_fields s (copySpace mesh)).2.2.2.2 e.name hr
    revert h hb
    simp only
    generalize emplace (emplace (emplace (emplace (fun _ => none) "state" s) "dirichlet_bc" s) "adjoint" s) "mesh_coords" (copySpace mesh) = b
    intro h hb
    induction pre generalizing b with
    | nil =>
      simp only [List.nil_append, addExternal] at h
      cases hes : fieldSpace e.opts e.numStates dim with
      | none => rw [hes] at h; exact absurd h (by simp)
      | some x =>
        rw [hes] at h
        refine ⟨addExternal_keeps dim post _ f h e.name x ?_, rfl⟩
        simp [emplace, hb]
    | cons e' pre ih =>
      simp only [List.cons_append, addExternal] at h
      cases hes : fieldSpace e'.opts e'.numStates dim with
      | none => rw [hes] at h; exact absurd h (by simp)
      | some x =>
        rw [hes] at h
        refine ih (fun e'' he'' => hp e'' (by simp [he''])) _ h ?_
        unfold emplace
        rw [if_neg fun hc => hp e' (by simp) hc.1.symm, hb]

/-- **C191** Nothing but the solver's own and the declared fields exists. -/
theorem C191_no_others (o : SpaceOpts) (ns : ℤ) (mesh : Space) (dim : ℕ) (ext : List External)
    (f : String → Option Space) (h : solverFields o ns mesh dim ext = some f) (m : String) (hm : m ∉ reserved) (he : ∀ e ∈ ext, e.name ≠ m) :
    f m = none := by
  unfold solverFields at h
  cases hs : fieldSpace o ns dim with
  | none => rw [hs] at h; exact absurd h (by simp)
  | some s =>
    rw [hs] at h
    exact addExternal_new dim ext _ f h m ((base_fields s (copySpace mesh)).2.2.2.2 m hm) he

/-- **C191** fails for the solver's own names: declaring an external field called, say, "adjoint" is accepted and its options are silently
ignored. -/
theorem C191_reserved_false : ∃ (o : SpaceOpts) (mesh : Space) (e : External) (f : String → Option Space),
    solverFields o 1 mesh 2 [e] = some f ∧ fieldSpace e.opts e.numStates 2 ≠ none ∧ f e.name ≠ fieldSpace e.opts e.numStates 2 := by
  refine ⟨⟨some 1, some "H1", none⟩, ⟨⟨.h1, 1, 2⟩, 2⟩, ⟨"adjoint", ⟨some 3, some "DG", none⟩, 4⟩, _, rfl, by decide, by decide⟩

/-- **C191** The size of a field: the residual's size for state, residual and adjoint; for any other existing field the number of its true dofs; zero for
names that do not exist. -/
theorem C191_sizes (k : ℕ) (hk : k ≠ 0) (size : Space → ℕ) (f : String → Option Space) (n : String) :
    (n = "state" ∨ n = "residual" ∨ n = "adjoint" → getFieldSize (some k) size f n = some k) ∧
    (∀ s, ¬ (n = "state" ∨ n = "residual" ∨ n = "adjoint") → f n = some s → ∀ r, getFieldSize r size f n = some (size s)) ∧
    (¬ (n = "state" ∨ n = "residual" ∨ n = "adjoint") → f n = none → ∀ r, getFieldSize r size f n = some 0) := by
  refine ⟨fun h => ?_, fun s h hs r => ?_, fun h hs r => ?_⟩
  · unfold getFieldSize; rw [if_pos h]; simp [hk]
  · unfold getFieldSize; rw [if_neg h, hs]; rfl
  · unfold getFieldSize; rw [if_neg h, hs]; rfl

/-- A thermal solver with a flux field: all hypotheses hold. -/
example : ∃ f, solverFields ⟨some 1, some "h1", none⟩ 1 ⟨⟨.h1, 1, 2⟩, 2⟩ 2 [⟨"peak_flux", ⟨some 2, some "dg", none⟩, 1⟩] = some f ∧
    "peak_flux" ∉ reserved ∧ f "peak_flux" = some ⟨⟨.l2, 2, 2⟩, 1⟩ ∧ f "state" = some ⟨⟨.h1, 1, 2⟩, 1⟩ ∧ f "load" = none :=
  ⟨_, rfl, by decide, by decide, by decide, by decide⟩

/-! ### C192 Mesh source -/

theorem extension_of (stem e : List Char) (he : '.' ∉ e) : extension (stem ++ '.' :: e) = some e := by
  unfold extension
  rw [if_pos (by simp)]
  congr 1
  have : (stem ++ '.' :: e).reverse = e.reverse ++ '.' :: stem.reverse := by simp
  rw [this, List.takeWhile_append_of_pos]
  · simp
  · intro c hc
    simp only [List.mem_reverse] at hc
    simpa using fun h : c = '.' => he (h ▸ hc)

/-- **C192** Without a mesh from the caller, a file named `stem.mesh` is read by MFEM, `stem.smb` and `stem.ugrid` by PUMI, whatever the stem; every
other ending is refused. -/
theorem C192_by_extension (stem e : List Char) (he : '.' ∉ e) :
    (e = "mesh".toList → constructMesh (stem ++ '.' :: e) false = .mfem (stem ++ '.' :: e)) ∧
    (e = "smb".toList ∨ e = "ugrid".toList → constructMesh (stem ++ '.' :: e) false = .pumi (stem ++ '.' :: e)) ∧
    (e ≠ "mesh".toList → e ≠ "smb".toList → e ≠ "ugrid".toList → constructMesh (stem ++ '.' :: e) false = .throws) := by
  refine ⟨fun h => ?_, fun h => ?_, fun h1 h2 h3 => ?_⟩
  · simp only [constructMesh, extension_of stem e he]
    rw [if_neg (by simp), if_pos h]
  · simp only [constructMesh, extension_of stem e he]
    rw [if_neg (by simp), if_neg, if_pos h]
    rcases h with h | h <;> rw [h] <;> decide
  · simp only [constructMesh, extension_of stem e he]
    rw [if_neg (by simp), if_neg h1, if_neg (by tauto)]

/-- **C192** A mesh handed over by the caller is used, whatever file the options name, as long as that name contains a dot. -/
theorem C192_given_partial (file : List Char) (h : '.' ∈ file) : constructMesh file true = .given := by
  simp [constructMesh, extension, h]

/-- **C192** fails for names without a dot: the options' file name is checked even though it is not used. -/
theorem C192_given_false (file : List Char) (h : '.' ∉ file) : constructMesh file true = .throws := by
  simp [constructMesh, extension, h]

example : constructMesh "data/box.v2.mesh".toList false = .mfem "data/box.v2.mesh".toList ∧
    constructMesh "cases.mesh/box".toList false = .throws ∧ constructMesh "none".toList true = .throws := by
  refine ⟨by decide +kernel, by decide +kernel, by decide +kernel⟩

/-! ### C193 State error -/

/-- **C193** The error of a state against a vector, or against a function that fills one, is the Euclidean norm of the difference of the entries this
rank holds; a vector of the wrong length is refused; an object of an unknown kind gives NaN. The result does not depend on earlier calls. -/
theorem C193_value {n : ℕ} (work state v : Fin n → ℝ) (c : Fin n → ℝ) :
    calcStateError (.vector n v) work state = .value (norml2 fun i => v i - state i) ∧
    calcStateError (.fill fun _ => c) work state = .value (norml2 fun i => c i - state i) ∧
    (∀ m (w : Fin m → ℝ), m ≠ n → calcStateError (.vector m w) work state = .throws) ∧
    (calcStateError (.other : Exact n) work state = .nan) := by
  refine ⟨?_, rfl, fun m w hm => ?_, rfl⟩
  · simp only [calcStateError, dif_pos]
    rfl
  · simp only [calcStateError, dif_neg hm]

/-- **C193** It vanishes exactly for the right state. -/
theorem C193_zero_iff {n : ℕ} (v state : Fin n → ℝ) : (norml2 fun i => v i - state i) = 0 ↔ state = v := by
  unfold norml2
  rw [Real.sqrt_eq_zero (Finset.sum_nonneg fun i _ => mul_self_nonneg _), Finset.sum_eq_zero_iff_of_nonneg fun i _ => mul_self_nonneg _]
  constructor
  · intro h
    funext i
    have := mul_self_eq_zero.1 (h i (Finset.mem_univ _))
    linarith
  · rintro rfl i _
    simp

/-- **C193** holds per rank only: the root of the sum of the squares of the ranks' results is the norm of the whole difference. -/
theorem C193_over_ranks_partial {r : ℕ} (n : Fin r → ℕ) (v state : (a : Fin r) → Fin (n a) → ℝ) :
    Real.sqrt (∑ a, (norml2 fun i => v a i - state a i) ^ 2) = Real.sqrt (∑ a, ∑ i, (v a i - state a i) ^ 2) := by
  congr 1
  refine Finset.sum_congr rfl fun a _ => ?_
  unfold norml2
  rw [Real.sq_sqrt (Finset.sum_nonneg fun i _ => mul_self_nonneg _)]
  exact Finset.sum_congr rfl fun i _ => (sq _).symm

/-- **C193** fails in parallel: with two ranks off by 3 and by 4, each rank returns its own part, none the norm 5 of the whole difference (the L2 error of a
field, in contrast, is the same on all ranks). -/
theorem C193_parallel_false : ∃ (v state : Fin 2 → Fin 1 → ℝ) (work : Fin 1 → ℝ), Real.sqrt (∑ a, ∑ i, (v a i - state a i) ^ 2) = 5 ∧
    calcStateError (.vector 1 (v 0)) work (state 0) = .value 3 ∧ calcStateError (.vector 1 (v 1)) work (state 1) = .value 4 := by
  have h3 : Real.sqrt (3 * 3) = 3 := Real.sqrt_mul_self (by norm_num)
  have h4 : Real.sqrt (4 * 4) = 4 := Real.sqrt_mul_self (by norm_num)
  refine ⟨![fun _ => 3, fun _ => 4], fun _ _ => 0, fun _ => 0, ?_, ?_, ?_⟩
  · rw [show (5 : ℝ) = Real.sqrt (5 * 5) from (Real.sqrt_mul_self (by norm_num)).symm]
    congr 1
    simp [Fin.sum_univ_two]
    norm_num
  · rw [(C193_value (n := 1) _ _ _ (fun _ => 0)).1]
    simp [norml2, h3]
  · rw [(C193_value (n := 1) _ _ _ (fun _ => 0)).1]
    simp [norml2, h4]

end Verif.PdeSetup
