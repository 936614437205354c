import Verif.PyFunctions

/-!
# Python functions as states and exact solutions: property theorems (C225)
-/

namespace Verif.PyFunctions

variable {K : Type}

theorem pick_callable (exact : Bool) (f : List (Arg K) → PyRes K) :
    pick 2 exact (.callable f) = some (0, some f) ∧ pick 3 exact (.callable f) = some (0, some f) := by
  cases exact <;> exact ⟨rfl, rfl⟩

theorem pick_none (exact : Bool) : pick 2 exact (.pyNone : PyObj K) = some (0, none) ∧ pick 3 exact (.pyNone : PyObj K) = some (0, none) := by
  cases exact <;> exact ⟨rfl, rfl⟩

theorem pick_other (exact : Bool) : pick 2 exact (.other : PyObj K) = none ∧ pick 3 exact (.other : PyObj K) = none := by
  cases exact <;> exact ⟨rfl, rfl⟩

theorem evalScalar_callable (f : List (Arg K) → PyRes K) (x : List K) (y : K) (h : f [.array x] = .number y) :
    evalScalar (some f) x = some y := by simp [evalScalar, callFn, h]

theorem mapM_some {α β : Type} (g : α → Option β) (h : α → β) : ∀ l : List α, (∀ x ∈ l, g x = some (h x)) → l.mapM g = some (l.map h)
  | [], _ => rfl
  | a :: l, hl => by
    rw [List.mapM_cons, hl a (by simp), mapM_some g h l (fun x hx => hl x (by simp [hx]))]
    rfl

theorem mapM_none {α β : Type} (g : α → Option β) : ∀ (l : List α) (x : α), x ∈ l → g x = none → l.mapM g = none
  | a :: l, x, hx, hg => by
    rw [List.mapM_cons]
    rcases List.mem_cons.1 hx with rfl | hx
    · rw [hg]; rfl
    · rw [mapM_none g l x hx hg]
      cases g a <;> rfl

/-- **C225** A Python function of one array that returns a number at every node sets the caller's vector, the named field and, for the field `state`, the Dirichlet
values to its values at the nodes, in the order of the nodes; other fields keep theirs. -/
theorem C225_scalar (nodes : List (List K)) (exact : Bool) (f : List (Arg K) → PyRes K) (u : List K → K)
    (hf : ∀ x ∈ nodes, f [.array x] = .number (u x)) (name : String) (fields : FieldMap K) (state : List K)
    (hn : fields name ≠ none) (hbc : name = "state" → fields "dirichlet_bc" ≠ none) :
    ∃ fields', setState nodes exact (.callable f) name (fields, state) = .ok (fields', nodes.map u) ∧
      fields' name = some (nodes.map u) ∧ (name = "state" → fields' "dirichlet_bc" = some (nodes.map u)) ∧
      ∀ g, g ≠ name → (name = "state" → g ≠ "dirichlet_bc") → fields' g = fields g := by
  have hp : projectScalar nodes (some f) = some (nodes.map u) :=
    mapM_some _ _ _ (fun x hx => evalScalar_callable f x _ (hf x hx))
  obtain ⟨a, ha⟩ := Option.ne_none_iff_exists'.1 hn
  simp only [setState, pick_callable, setStateScalar, ha, hp]
  by_cases hs : name = "state"
  · subst hs
    obtain ⟨b, hb⟩ := Option.ne_none_iff_exists'.1 (hbc rfl)
    simp only [if_true, show ("dirichlet_bc" = "state") = False from by simp, if_false, hb]
    exact ⟨_, rfl, by simp, by simp, fun g h1 h2 => by simp [h1, h2]⟩
  · simp only [if_neg hs]
    exact ⟨_, rfl, by simp, fun h => absurd h hs, fun g h1 _ => by simp [h1]⟩

/-- **C225** If at some node the function raises or returns something that is no number, or the name is no field, `setState` raises (and then, as `Outcome.raised` carries no
new state, the caller's vector is as before). -/
theorem C225_fails (nodes : List (List K)) (exact : Bool) (f : List (Arg K) → PyRes K) (name : String) (fields : FieldMap K) (state : List K)
    (h : fields name = none ∨ ∃ x ∈ nodes, ∀ y, f [.array x] ≠ .number y) :
    setState nodes exact (.callable f) name (fields, state) = .raised := by
  simp only [setState, pick_callable, setStateScalar]
  rcases hn : fields name with _ | a
  · rfl
  · rcases h with h | ⟨x, hx, h⟩
    · rw [hn] at h; cases h
    · have : projectScalar nodes (some f) = none := by
        refine mapM_none _ nodes x hx ?_
        simp only [evalScalar, callFn]
        rcases hv : f [.array x] with y | _ | _ <;> simp_all
      simp only [this]

/-- **C225** fails for vector-valued states: a Python function of a point and a vector to fill, which cannot be called with one argument, is not used as one; the call raises. -/
theorem C225_vector_false (nodes : List (List K)) (hne : nodes ≠ []) (exact : Bool) (f : List (Arg K) → PyRes K) (h1 : ∀ a, f [a] = .raises)
    (name : String) (fields : FieldMap K) (state : List K) :
    setState nodes exact (.callable f) name (fields, state) = .raised := by
  obtain ⟨x, hx⟩ := List.exists_mem_of_ne_nil nodes hne
  exact C225_fails nodes exact f name fields state (Or.inr ⟨x, hx, fun y => by rw [h1]; simp⟩)

/-- **C225** fails for `calcStateError`: whatever Python object is given as the exact solution, no error is returned. -/
theorem C225_error_false (exact : Bool) (o : PyObj K) (state : List K) (norm : List K → K) :
    ∀ e, calcStateError exact o state norm ≠ .ok e := by
  intro e
  cases o with
  | callable f => simp [calcStateError, pick_callable, callFn, vectorRegistered]
  | pyNone => simp [calcStateError, pick_none, callFn]
  | other => simp [calcStateError, pick_other]

/-- **C225** An object that is neither callable nor `None` is a type error, `None` raises at the first node. -/
theorem C225_not_callable (nodes : List (List K)) (hne : nodes ≠ []) (exact : Bool) (name : String) (fields : FieldMap K) (state : List K) :
    setState nodes exact .other name (fields, state) = .typeError ∧
    setState nodes exact .pyNone name (fields, state) = .raised := by
  refine ⟨by simp [setState, pick_other], ?_⟩
  obtain ⟨x, hx⟩ := List.exists_mem_of_ne_nil nodes hne
  simp only [setState, pick_none, setStateScalar]
  rcases fields name with _ | a
  · rfl
  · have : projectScalar nodes (none : CppFn K) = none := mapM_none _ nodes x hx (by simp [evalScalar, callFn])
    simp only [this]

/-! ### Non-vacuity -/

/-- `lambda x: x[0] + x[1]`, which raises for anything but one array with two entries. -/
def sumFn : List (Arg Int) → PyRes Int
  | [.array [a, b]] => .number (a + b)
  | _ => .raises

/-- The fields of a solver. -/
def sampleFields : FieldMap Int := fun g => if g = "state" ∨ g = "dirichlet_bc" then some [7, 7] else none

example : ∀ x ∈ [[1, 2], [3, 4]], sumFn [.array x] = .number (x.sum) := by simp [sumFn]
example : sampleFields "state" ≠ none ∧ sampleFields "dirichlet_bc" ≠ none := by simp [sampleFields]
/-- `def f(x, u): u[:] = x` -/
def twoArgs : List (Arg Int) → PyRes Int
  | [_, _] => .object
  | _ => .raises
example : ∀ a, twoArgs [a] = .raises := by simp [twoArgs]

end Verif.PyFunctions
