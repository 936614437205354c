import Verif.FuncComp
import Mathlib.Algebra.Ring.Rat
import Mathlib.Tactic.NormNum
import Mathlib.Tactic.Ring

/-!
Property C229: an output component has no memory.
-/

namespace Verif.FuncComp

set_option linter.unusedSimpArgs false
set_option linter.unusedSectionVars false

variable {K : Type} [Zero K]

/-- The component has buffers for the output and, otherwise, only for inputs it declares; no input is called like the output. -/
def Fits (func : String) (names : List String) (vec : Dict K) : Prop :=
  func ∉ names ∧ (∃ v, vec.lookup func = some v) ∧ ∀ k v, vec.lookup k = some v → k = func ∨ k ∈ names

/-- OpenMDAO passes every declared input, each once. -/
def Passes (names : List String) (inputs : Dict K) : Prop := inputs.map Prod.fst = names ∧ names.Nodup

/-- Specification: the solver never looks at an entry named like the output itself. -/
def Ignores {P : Type} (func : String) (f : (String → Option (List K)) → P) : Prop :=
  ∀ d d' : String → Option (List K), (∀ k, k ≠ func → d k = d' k) → f d = f d'

theorem assign_resize (b v : List K) : assign (if b.length ≠ v.length then resize b v.length else b) v = some v := by
  have h : ∀ (c : List K), c.length = v.length → assign c v = some v := by
    intro c hc
    rw [assign, if_pos hc]
    congr 1
    apply List.ext_getElem
    · simp [hc]
    · intro i h1 h2; simp
  apply h
  split
  · simp [resize]; omega
  · rename_i hn; simpa using hn

theorem put_lookup (d : Dict K) (k j : String) (v : List K) :
    (put d k v).lookup j = if j = k then (d.lookup j).map fun _ => v else d.lookup j := by
  induction d with
  | nil => simp [put]
  | cons e d ih =>
    obtain ⟨a, w⟩ := e
    simp only [put, List.map_cons] at ih ⊢
    by_cases ha : a = k
    · subst ha
      simp only [if_true, List.lookup]
      by_cases hj : j = a
      · subst hj; simp
      · have : (j == a) = false := by simpa using hj
        simp only [this, if_neg hj]
        rw [ih, if_neg hj]
    · simp only [if_neg ha, List.lookup]
      by_cases hj : j = a
      · subst hj
        simp [ha]
      · have : (j == a) = false := by simpa using hj
        simp only [this]
        exact ih

/-- The copying loop puts the value of every input that has a buffer into it and touches nothing else; it never fails. -/
theorem copyIn_lookup (inputs : Dict K) (hn : (inputs.map Prod.fst).Nodup) : ∀ vec : Dict K, ∃ vec', copyIn inputs vec = some vec' ∧
    ∀ k, vec'.lookup k = (vec.lookup k).map fun b => (inputs.lookup k).getD b := by
  induction inputs with
  | nil => intro vec; exact ⟨vec, rfl, fun k => by cases vec.lookup k <;> simp⟩
  | cons e rest ih =>
    obtain ⟨a, v⟩ := e
    intro vec
    simp only [List.map_cons, List.nodup_cons] at hn
    have hrest : rest.lookup a = none := by
      rw [List.lookup_eq_none_iff]
      intro p hp
      have : p.1 ∈ rest.map Prod.fst := List.mem_map_of_mem hp
      simp only [bne_iff_ne, ne_eq]
      intro h
      exact hn.1 (h ▸ this)
    simp only [copyIn]
    cases hv : vec.lookup a with
    | none =>
      obtain ⟨vec', h1, h2⟩ := ih hn.2 vec
      refine ⟨vec', h1, fun k => ?_⟩
      rw [h2 k]
      by_cases hk : k = a
      · subst hk; simp [hv]
      · have : (k == a) = false := by simpa using hk
        simp [List.lookup, this]
    | some b =>
      simp only [assign_resize, Option.bind_some]
      obtain ⟨vec', h1, h2⟩ := ih hn.2 (put vec a v)
      refine ⟨vec', h1, fun k => ?_⟩
      rw [h2 k, put_lookup]
      by_cases hk : k = a
      · subst hk; simp [hv, hrest, List.lookup]
      · have : (k == a) = false := by simpa using hk
        simp [hk, List.lookup, this]

theorem lookup_some_of_mem (inputs : Dict K) (k : String) (h : k ∈ inputs.map Prod.fst) : ∃ v, inputs.lookup k = some v := by
  cases e : inputs.lookup k with
  | some v => exact ⟨v, rfl⟩
  | none =>
    rw [List.lookup_eq_none_iff] at e
    obtain ⟨p, hp, rfl⟩ := List.mem_map.1 h
    have := e p hp
    simp at this

theorem merged_eq (func : String) (names : List String) (vec vec' inputs : Dict K) (hf : Fits func names vec) (hp : Passes names inputs)
    (hl : ∀ k, vec'.lookup k = (vec.lookup k).map fun b => (inputs.lookup k).getD b) (k : String) (hk : k ≠ func) :
    merged inputs vec' k = inputs.lookup k := by
  unfold merged
  rw [hl k]
  cases e : vec.lookup k with
  | none => simp
  | some b =>
    rcases hf.2.2 k b e with rfl | hkn
    · exact absurd rfl hk
    · obtain ⟨v, hv⟩ := lookup_some_of_mem inputs k (by rw [hp.1]; exact hkn)
      simp [hv]

theorem fits_copy (func : String) (names : List String) (vec vec' inputs : Dict K) (hf : Fits func names vec)
    (hl : ∀ k, vec'.lookup k = (vec.lookup k).map fun b => (inputs.lookup k).getD b) : Fits func names vec' := by
  refine ⟨hf.1, ?_, fun k v h => ?_⟩
  · obtain ⟨v, hv⟩ := hf.2.1
    exact ⟨_, by rw [hl, hv]; rfl⟩
  · rw [hl] at h
    cases e : vec.lookup k with
    | none => simp [e] at h
    | some b => exact hf.2.2 k b e

theorem fits_put (func : String) (names : List String) (vec : Dict K) (r : List K) (hf : Fits func names vec) : Fits func names (put vec func r) := by
  refine ⟨hf.1, ?_, fun k v h => ?_⟩
  · obtain ⟨v, hv⟩ := hf.2.1
    exact ⟨r, by rw [put_lookup, if_pos rfl, hv]; rfl⟩
  · rw [put_lookup] at h
    by_cases hk : k = func
    · exact .inl hk
    · rw [if_neg hk] at h
      exact hf.2.2 k v h

/-- **C229** What the component computes, and what derivatives it takes, is the solver's output (or product) for exactly the inputs of this call: not of an earlier one, whatever its
buffers hold and however the lengths of the inputs changed; it never fails, and is ready for the next call. -/
theorem C229_memoryless {P : Type} (sol : (String → Option (List K)) → List K) (prod : (String → Option (List K)) → P) (func : String)
    (names : List String) (vec inputs : Dict K) (hf : Fits func names vec) (hp : Passes names inputs) (hc : Ignores func sol) (hq : Ignores func prod) :
    (∃ vec', compute sol func vec inputs = some (sol (fun k => inputs.lookup k), vec') ∧ Fits func names vec') ∧
    (∃ vec', jacvec prod vec inputs = some (prod (fun k => inputs.lookup k), vec') ∧ Fits func names vec') := by
  obtain ⟨vec', h1, h2⟩ := copyIn_lookup inputs (hp.1 ▸ hp.2) vec
  have hm := merged_eq func names vec vec' inputs hf hp h2
  have hf' := fits_copy func names vec vec' inputs hf h2
  refine ⟨⟨put vec' func (sol (fun k => inputs.lookup k)), ?_, fits_put func names vec' _ hf'⟩, ⟨vec', ?_, hf'⟩⟩
  · simp only [compute, h1, Option.bind_some]
    rw [hc _ _ hm]
  · simp only [jacvec, h1, Option.bind_some]
    rw [hq _ _ hm]

/-- Every call of a history passes all inputs. -/
def Proper (names : List String) : Call K → Prop
  | .compute i => Passes names i
  | .product i => Passes names i

omit [Zero K] in
theorem buffer_lookup (junk : ℕ → K) (d : Dep) (k : String) (v : List K) (h : (d.buffer junk).lookup k = some v) : k = d.name := by
  unfold Dep.buffer at h
  split at h
  · rename_i hs
    simp only [List.lookup] at h
    split at h
    · rename_i hk; rw [hs]; simpa using hk
    · cases h
  · split at h
    · rename_i hs
      simp only [List.lookup] at h
      split at h
      · rename_i hk; rw [hs]; simpa using hk
      · cases h
    · split at h
      · simp only [List.lookup] at h
        split at h
        · rename_i hk; simpa using hk
        · cases h
      · cases h

omit [Zero K] in
theorem lookup_append (a b : Dict K) (k : String) : (a ++ b).lookup k = (a.lookup k).or (b.lookup k) := by
  induction a with
  | nil => simp
  | cons e a ih =>
    obtain ⟨x, w⟩ := e
    simp only [List.cons_append, List.lookup]
    split
    · simp
    · exact ih

omit [Zero K] in
theorem setup_fits (junk : ℕ → K) (deps : List Dep) (func : String) (size : ℕ) (hfun : func ∉ deps.map Dep.name) :
    Fits func (deps.map Dep.name) (setup junk deps func size) := by
  have key : ∀ k v, (deps.flatMap (Dep.buffer junk)).lookup k = some v → k ∈ deps.map Dep.name := by
    intro k v
    induction deps with
    | nil => simp
    | cons d deps ih =>
      intro h
      simp only [List.flatMap_cons, lookup_append] at h
      cases e : (d.buffer junk).lookup k with
      | some w => simp [buffer_lookup junk d k w e]
      | none =>
        rw [e] at h
        simp only [Option.none_or] at h
        simp only [List.map_cons, List.mem_cons, not_or] at hfun ⊢
        exact .inr (ih hfun.2 h)
  refine ⟨hfun, ?_, fun k v h => ?_⟩
  · unfold setup
    rw [lookup_append]
    cases e : (deps.flatMap (Dep.buffer junk)).lookup func with
    | some v => exact ⟨v, by simp⟩
    | none => exact ⟨_, by simp [List.lookup]; rfl⟩
  · unfold setup at h
    rw [lookup_append] at h
    cases e : (deps.flatMap (Dep.buffer junk)).lookup k with
    | some w => exact .inr (key k w e)
    | none =>
      rw [e] at h
      simp only [Option.none_or, List.lookup] at h
      split at h
      · rename_i hk; exact .inl (by simpa using hk)
      · cases h

/-- **C229** For a component after `setup` (whatever the new buffers hold) and every history of proper calls: no call fails, and the next evaluation gives what a new component
would give. -/
theorem C229_history (sol : (String → Option (List K)) → List K) (junk : ℕ → K) (deps : List Dep) (func : String) (size : ℕ)
    (hfun : func ∉ deps.map Dep.name) (hc : Ignores func sol) (cs : List (Call K)) (hcs : ∀ c ∈ cs, Proper (deps.map Dep.name) c) (inputs : Dict K)
    (hp : Passes (deps.map Dep.name) inputs) :
    ∃ vec, run sol func cs (setup junk deps func size) = some vec ∧
      (compute sol func vec inputs).map Prod.fst = some (sol fun k => inputs.lookup k) := by
  have key : ∀ (cs : List (Call K)), (∀ c ∈ cs, Proper (deps.map Dep.name) c) → ∀ v0 : Dict K, Fits func (deps.map Dep.name) v0 →
      ∃ vec, run sol func cs v0 = some vec ∧ Fits func (deps.map Dep.name) vec := by
    intro cs
    induction cs with
    | nil => intro _ v0 h; exact ⟨v0, rfl, h⟩
    | cons c cs ih =>
      intro h v0 hv
      have hcp := h c (by simp)
      cases c with
      | compute i =>
        obtain ⟨⟨v1, h1, h2⟩, -⟩ := C229_memoryless sol (fun _ => ()) func _ v0 i hv hcp hc (fun _ _ _ => rfl)
        obtain ⟨v2, h3, h4⟩ := ih (fun c hc => h c (by simp [hc])) v1 h2
        exact ⟨v2, by simp [run, h1, h3], h4⟩
      | product i =>
        obtain ⟨-, v1, h1, h2⟩ := C229_memoryless sol (fun _ => ()) func _ v0 i hv hcp hc (fun _ _ _ => rfl)
        obtain ⟨v2, h3, h4⟩ := ih (fun c hc => h c (by simp [hc])) v1 h2
        exact ⟨v2, by simp [run, h1, h3], h4⟩
  obtain ⟨vec, h1, h2⟩ := key cs hcs _ (setup_fits junk deps func size hfun)
  obtain ⟨⟨v1, h3, -⟩, -⟩ := C229_memoryless sol (fun _ => ()) func _ vec inputs h2 hp hc (fun _ _ _ => rfl)
  exact ⟨vec, h1, by simp [h3]⟩

/-- **C229** (negation) Without the assumption that the solver ignores an entry named like the output, it fails: the buffer of the output is handed over as an input of that name.  Here the
solver adds 1 to the entry "f": the first result is made of uninitialised memory, and the same inputs give another result the second time. -/
theorem C229_own_name_false : ∃ (sol : (String → Option (List ℚ)) → List ℚ), ∀ junk : ℕ → ℚ, ∃ v1 v2 : Dict ℚ,
    compute sol "f" (setup junk [⟨"x", 0⟩] "f" 1) [("x", [5])] = some ([junk 0 + 1], v1) ∧
    compute sol "f" v1 [("x", [5])] = some ([junk 0 + 2], v2) := by
  refine ⟨fun d => ((d "f").getD []).map (· + 1), fun junk => ⟨[("f", [junk 0 + 1])], [("f", [junk 0 + 2])], ?_, ?_⟩⟩
  · simp [compute, setup, Dep.buffer, copyIn, merged, put, List.lookup, List.range_succ]
  · have : junk 0 + 1 + 1 = junk 0 + 2 := by ring
    simp [compute, copyIn, merged, put, List.lookup, this]

/-! Non-vacuity: a component of the state and a scalar; the state changes its length between the calls. -/

/-- Witness: the sum of the state times the scalar. -/
def exCalc (d : String → Option (List ℚ)) : List ℚ := [((d "state").getD []).sum * ((d "f0").getD []).sum]

example : Ignores "power" exCalc ∧ Passes ["state", "f0"] [("state", [1, 2]), ("f0", [(3 : ℚ)])] ∧
    "power" ∉ [(⟨"state", 2⟩ : Dep), ⟨"f0", 1⟩].map Dep.name ∧
    (compute exCalc "power" (setup (fun _ => 77) [⟨"state", 2⟩, ⟨"f0", 1⟩] "power" 1) [("state", [1, 2]), ("f0", [3])]).map Prod.fst = some [9] := by
  refine ⟨fun d d' h => ?_, ⟨rfl, by decide⟩, by decide, by decide +kernel⟩
  simp [exCalc, h "state" (by decide), h "f0" (by decide)]

end Verif.FuncComp
