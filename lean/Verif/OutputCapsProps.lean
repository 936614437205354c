import Verif.OutputCaps

/-!
# Available operations of outputs and residuals: property theorems (C220)

Specification: the outputs the documentation calls fields, those with each derivative, and what "not available" means for a
caller — an exception, and nothing written.
-/

namespace Verif.OutputCaps

open Verif.Registry

set_option linter.unusedSimpArgs false

variable {O In Opt K : Type}

/-! ## Specification -/

/-- Outputs whose value is a field. -/
def IsField (c : Cls) : Prop := c = .curlProjection ∨ c = .curlMagProjection ∨ c = .heatSource

/-- The two projected flux fields. -/
def IsProjection (c : Cls) : Prop := c = .curlProjection ∨ c = .curlMagProjection

/-- Outputs that can be differentiated with respect to a single number in reverse mode. -/
def HasScalarReverse (c : Cls) : Prop :=
  c = .functional ∨ c = .mass ∨ c = .dcLoss ∨ c = .acLoss ∨ c = .coreLoss ∨ c = .heatSource

/-- Outputs with explicit partial derivatives. -/
def HasPartial (c : Cls) : Prop := c = .functional ∨ c = .force ∨ c = .torque

/-- The call wrote nothing and threw. -/
def Refused {α : Type} (v : α) (r : α × Outcome Unit) : Prop := r = (v, .throws .other)

instance (c : Cls) : Decidable (IsField c) := inferInstanceAs (Decidable (_ ∨ _ ∨ _))
instance (c : Cls) : Decidable (HasScalarReverse c) := inferInstanceAs (Decidable (_ ∨ _ ∨ _ ∨ _ ∨ _ ∨ _))
instance (c : Cls) : Decidable (IsProjection c) := inferInstanceAs (Decidable (_ ∨ _))
instance (c : Cls) : Decidable (HasPartial c) := inferInstanceAs (Decidable (_ ∨ _ ∨ _))

/-! ## Overload resolution -/

/-- Every call compiles: for every output type each operation finds a function. -/
theorem C220_well_formed (c : Cls) (f : Fn) : resolve c f ≠ .illFormed := by cases c <;> cases f <;> decide

/-- A type's own function is always preferred, and what an operation does when the type has none is: nothing for options,
the base class's NaN for the value of the two projections, an exception for everything else. -/
theorem C220_resolution (c : Cls) (f : Fn) :
    (own c f = true → resolve c f = .own) ∧
    (own c f = false → (resolve c f = .nothing ∧ f = .setOptions ∧ IsProjection c) ∨
      (resolve c f = .base ∧ f = .calcScalar ∧ IsProjection c) ∨
      (resolve c f = .throws ∧ f ≠ .setOptions ∧ f ≠ .setInputs ∧ f ≠ .calcScalar)) := by
  constructor
  · intro h; simp [resolve, h]
  · intro h; cases c <;> cases f <;> simp_all [own, resolve, generic, base, IsProjection]

theorem many {α : Type} (v : List α) (h : v.length ≠ 1) : v = [] ∨ ∃ a b t, v = a :: b :: t := by
  rcases v with _ | ⟨a, _ | ⟨b, t⟩⟩
  · exact .inl rfl
  · simp at h
  · exact .inr ⟨a, b, t, rfl⟩

section vec
variable {P : Type} (J : Iface P In Opt K) (s : Outs P) (n : String) (i : In) (p p1 p2 : P)
  (sc : P → P × Outcome K) (ve : P → List K → P × List K × Option Err) (cb : K → K → K)

theorem vec_one (hn : s n = some p) (hs : J.setInputs p i = (p1, none)) (x y : K) (h : sc p1 = (p2, .ok y)) :
    (vecOp J s n i sc ve cb [x]).2 = ([cb x y], .ok ()) := by simp [vecOp, hn, hs, h]

theorem vec_one_refused (hn : s n = some p) (hs : J.setInputs p i = (p1, none)) (x : K) (h : sc p1 = (p2, .throws .other)) :
    Refused [x] (vecOp J s n i sc ve cb [x]).2 := by simp [Refused, vecOp, hn, hs, h, swallow]

theorem vec_many (hn : s n = some p) (hs : J.setInputs p i = (p1, none)) (v v' : List K) (hv : v.length ≠ 1)
    (h : ve p1 v = (p2, v', none)) : (vecOp J s n i sc ve cb v).2 = (v', .ok ()) := by
  rcases many v hv with rfl | ⟨a, b, t, rfl⟩ <;> simp [vecOp, hn, hs, h, swallow]

theorem vec_many_refused (hn : s n = some p) (hs : J.setInputs p i = (p1, none)) (v : List K) (hv : v.length ≠ 1)
    (h : ve p1 v = (p2, v, some .other)) : Refused v (vecOp J s n i sc ve cb v).2 := by
  rcases many v hv with rfl | ⟨a, b, t, rfl⟩ <;> simp [Refused, vecOp, hn, hs, h, swallow]

end vec

variable [Zero K] (nan : K) (mk : String → Opt → Outcome (Obj O)) (I : Iface O In Opt K)

theorem set_inputs (c : Cls) (o o1 : O) (i : In) (h : I.setInputs o i = (o1, none)) (hc : c ≠ .entropy) :
    (iface nan mk I).setInputs (c, o) i = ((c, o1), none) := by
  cases c <;> first | exact absurd rfl hc | simp [iface, resolve, own, h]

theorem set_inputs_entropy (o : O) (i : In) : (iface nan mk I).setInputs (.entropy, o) i = ((.entropy, o), none) := by
  simp [iface, resolve, own]

/-- **C220, values.** A scalar-valued output evaluated into a vector of one entry writes its value there, and a field output
evaluated into a vector of any other length runs its own field evaluation on that vector. -/
theorem C220_value (s : Outs (Obj O)) (n : String) (i : In) (c : Cls) (o o1 : O) (hn : s n = some (c, o))
    (hset : I.setInputs o i = (o1, none)) (hc : c ≠ .entropy) :
    (¬ IsField c → ∀ x o2 y, I.calcScalar o1 i = (o2, .ok y) → (calcOutputVec (iface nan mk I) s n i [x]).2 = ([y], .ok ())) ∧
    (IsField c → ∀ v : List K, v.length ≠ 1 → ∀ o2 v', I.calcVec o1 i v = (o2, v', none) →
      (calcOutputVec (iface nan mk I) s n i v).2 = (v', .ok ())) := by
  have hs := set_inputs nan mk I c o o1 i hset hc
  constructor
  · intro hf x o2 y h
    refine vec_one (iface nan mk I) s n i _ _ (c, o2) _ _ _ hn hs x y ?_
    clear hn hs hc
    cases c <;> first | exact absurd (by decide) hf | simp [iface, resolve, own, h]
  · intro hf v hv o2 v' h
    refine vec_many (iface nan mk I) s n i _ _ (c, o2) _ _ _ hn hs v v' hv ?_
    clear hn hs hc
    rcases hf with rfl | rfl | rfl <;> simp [iface, resolve, own, h]

/-- **C220 is false for fields with one entry on this process** (one element of degree zero, or a small partition): the
value written is NaN and no exception is thrown, whatever the field. -/
theorem C220_false_field_of_one (s : Outs (Obj O)) (n : String) (i : In) (c : Cls) (o o1 : O)
    (hn : s n = some (c, o)) (hset : I.setInputs o i = (o1, none)) (hc : IsField c) (x : K) :
    (calcOutputVec (iface nan mk I) s n i [x]).2 = ([nan], .ok ()) := by
  have hs := set_inputs nan mk I c o o1 i hset (by rcases hc with rfl | rfl | rfl <;> decide)
  refine vec_one (iface nan mk I) s n i _ _ (c, o1) _ _ _ hn hs x nan ?_
  rcases hc with rfl | rfl | rfl <;> simp [iface, resolve, own, generic, base]

theorem scalar_refuses (c : Cls) (p : O) (i : In) (v : List K) (hc : ¬ IsField c) :
    (iface nan mk I).calcVec (c, p) i v = ((c, p), v, some .other) := by
  cases c <;> first | exact absurd (by decide) hc | simp [iface, resolve, own, generic]

/-- Scalar outputs refuse to be evaluated into a vector whose length is not one. -/
theorem C220_scalar_refuses_vectors (s : Outs (Obj O)) (n : String) (i : In) (c : Cls) (o o1 : O)
    (hn : s n = some (c, o)) (hset : I.setInputs o i = (o1, none)) (hc : ¬ IsField c) (v : List K) (hv : v.length ≠ 1) :
    Refused v (calcOutputVec (iface nan mk I) s n i v).2 := by
  by_cases he : c = .entropy
  · subst he
    exact vec_many_refused (iface nan mk I) s n i _ _ _ _ _ _ hn (set_inputs_entropy nan mk I o i) v hv
      (scalar_refuses nan mk I _ o i v hc)
  · exact vec_many_refused (iface nan mk I) s n i _ _ _ _ _ _ hn (set_inputs nan mk I c o o1 i hset he) v hv
      (scalar_refuses nan mk I _ o1 i v hc)

/-- Every output except the flow entropy reports the size its own evaluation accepts: one for numbers. -/
theorem C220_size (c : Cls) (o : O) : (c ≠ .entropy ∧ ¬ IsField c → (iface nan mk I).size (c, o) = 1) ∧
    (IsField c → (iface nan mk I).size (c, o) = I.size o) := by
  cases c <;> simp [iface, size, IsField]

/-- **C220 is false for the flow entropy**: a caller who asks for its size and evaluates into a vector of that size — as the
Python layer does — gets an exception for every state of more than one unknown. -/
theorem C220_false_entropy_size (s : Outs (Obj O)) (n : String) (i : In) (o o1 : O) (hn : s n = some (.entropy, o))
    (hset : I.setInputs o i = (o1, none)) (v : List K) (hsize : getOutputSize (iface nan mk I) s n = .ok (v.length : Int))
    (h1 : I.size o ≠ 1) :
    Refused v (calcOutputVec (iface nan mk I) s n i v).2 := by
  refine C220_scalar_refuses_vectors nan mk I s n i .entropy o o1 hn hset (by decide) v ?_
  intro hv
  rw [hv] at hsize
  simp [getOutputSize, hn, iface, size] at hsize
  exact h1 hsize

/-- Evaluated into a single number, the flow entropy is the entropy. -/
theorem C220_entropy_number (s : Outs (Obj O)) (n : String) (i : In) (o o2 : O) (hn : s n = some (.entropy, o)) (x y : K)
    (h : I.calcScalar o i = (o2, .ok y)) : (calcOutputVec (iface nan mk I) s n i [x]).2 = ([y], .ok ()) := by
  refine vec_one (iface nan mk I) s n i _ _ (.entropy, o2) _ _ _ hn (set_inputs_entropy nan mk I o i) x y ?_
  simp [iface, resolve, own, h]

/-- **C220 is false for the partials of the flow entropy**: they are reported as zero, silently, although the entropy depends
on the state; its products throw. -/
theorem C220_false_entropy_partials [Add K] (s : Outs (Obj O)) (n wrt : String) (i : In) (o : O)
    (hn : s n = some (.entropy, o)) :
    (∀ v, (calcOutputPartialVec (iface nan mk I) s n wrt i v).2 = (v, .ok ())) ∧
    (∀ x, (calcOutputPartial (iface nan mk I) s n wrt i (.num x)).2 = (.num (x + 0), .ok ())) ∧
    (∀ d v, Refused v (outputJVP (iface nan mk I) s n i d wrt v).2) ∧
    (∀ b v, Refused v (outputVJP (iface nan mk I) s n i b wrt v).2) := by
  have hs := set_inputs_entropy nan mk I o i
  refine ⟨?_, ?_, ?_, ?_⟩
  · intro v
    have h : (iface nan mk I).partialVec (.entropy, o) wrt i v = ((.entropy, o), v, none) := by simp [iface, resolve, own]
    simp [calcOutputPartialVec, hn, hs, h, swallow]
  · intro x
    have h : (iface nan mk I).partialScalar (.entropy, o) wrt i = ((.entropy, o), .ok 0) := by simp [iface, resolve, own]
    simp [calcOutputPartial, hn, hs, h]
  · intro d v
    by_cases hv : v.length = 1
    · obtain ⟨x, rfl⟩ := List.length_eq_one_iff.1 hv
      exact vec_one_refused (iface nan mk I) s n i _ _ (.entropy, o) _ _ _ hn hs x (by simp [iface, resolve, own, generic])
    · exact vec_many_refused (iface nan mk I) s n i _ _ (.entropy, o) _ _ _ hn hs v hv (by simp [iface, resolve, own, generic])
  · intro d v
    by_cases hv : v.length = 1
    · obtain ⟨x, rfl⟩ := List.length_eq_one_iff.1 hv
      exact vec_one_refused (iface nan mk I) s n i _ _ (.entropy, o) _ _ _ hn hs x (by simp [iface, resolve, own, generic])
    · exact vec_many_refused (iface nan mk I) s n i _ _ (.entropy, o) _ _ _ hn hs v hv (by simp [iface, resolve, own, generic])

/-- **C220, forward products.** Every scalar output but the entropy adds its own product to a one-entry result; the heat
source runs its own product on longer results; the flux projections refuse, whatever the length, and so does every output
given a result of the wrong kind. -/
theorem C220_forward [Add K] (s : Outs (Obj O)) (n wrt : String) (i : In) (c : Cls) (o o1 : O) (hn : s n = some (c, o))
    (hset : I.setInputs o i = (o1, none)) (hc : c ≠ .entropy) (d : List K) :
    (¬ IsField c → ∀ x o2 y, I.jvpScalar o1 d wrt = (o2, .ok y) →
      (outputJVP (iface nan mk I) s n i d wrt [x]).2 = ([x + y], .ok ())) ∧
    (¬ IsField c → ∀ v, v.length ≠ 1 → Refused v (outputJVP (iface nan mk I) s n i d wrt v).2) ∧
    (c = .heatSource → ∀ v, v.length ≠ 1 → ∀ o2 v', I.jvpVec o1 d wrt v = (o2, v', none) →
      (outputJVP (iface nan mk I) s n i d wrt v).2 = (v', .ok ())) ∧
    (c = .heatSource → ∀ x, Refused [x] (outputJVP (iface nan mk I) s n i d wrt [x]).2) ∧
    (IsProjection c → ∀ v, Refused v (outputJVP (iface nan mk I) s n i d wrt v).2) := by
  have hs := set_inputs nan mk I c o o1 i hset hc
  refine ⟨?_, ?_, ?_, ?_, ?_⟩
  · intro hf x o2 y h
    refine vec_one (iface nan mk I) s n i _ _ (c, o2) _ _ _ hn hs x y ?_
    clear hn hs
    cases c <;> first | exact absurd rfl hc | exact absurd (by decide) hf | simp [iface, resolve, own, h]
  · intro hf v hv
    refine vec_many_refused (iface nan mk I) s n i _ _ (c, o1) _ _ _ hn hs v hv ?_
    clear hn hs
    cases c <;> first | exact absurd (by decide) hf | simp [iface, resolve, own, generic]
  · rintro rfl v hv o2 v' h
    exact vec_many (iface nan mk I) s n i _ _ (.heatSource, o2) _ _ _ hn hs v v' hv (by simp [iface, resolve, own, h])
  · rintro rfl x
    exact vec_one_refused (iface nan mk I) s n i _ _ (.heatSource, o1) _ _ _ hn hs x (by simp [iface, resolve, own, generic])
  · intro hp v
    by_cases hv : v.length = 1
    · obtain ⟨x, rfl⟩ := List.length_eq_one_iff.1 hv
      refine vec_one_refused (iface nan mk I) s n i _ _ (c, o1) _ _ _ hn hs x ?_
      rcases hp with rfl | rfl <;> simp [iface, resolve, own, generic]
    · refine vec_many_refused (iface nan mk I) s n i _ _ (c, o1) _ _ _ hn hs v hv ?_
      rcases hp with rfl | rfl <;> simp [iface, resolve, own, generic]

/-- **C220, reverse products.** With respect to a field every output but the entropy runs its own product; with respect to a
single number exactly the listed outputs do, the others (force, torque, volume, the averages, the aggregates, the flux
projections) refuse — also for numbers they do not depend on, where the product would be zero. -/
theorem C220_reverse [Add K] (s : Outs (Obj O)) (n wrt : String) (i : In) (c : Cls) (o o1 : O) (hn : s n = some (c, o))
    (hset : I.setInputs o i = (o1, none)) (hc : c ≠ .entropy) (b : List K) :
    (∀ v, v.length ≠ 1 → ∀ o2 v', I.vjpVec o1 b wrt v = (o2, v', none) →
      (outputVJP (iface nan mk I) s n i b wrt v).2 = (v', .ok ())) ∧
    (HasScalarReverse c → ∀ x o2 y, I.vjpScalar o1 b wrt = (o2, .ok y) →
      (outputVJP (iface nan mk I) s n i b wrt [x]).2 = ([x + y], .ok ())) ∧
    (¬ HasScalarReverse c → ∀ x, Refused [x] (outputVJP (iface nan mk I) s n i b wrt [x]).2) := by
  have hs := set_inputs nan mk I c o o1 i hset hc
  refine ⟨?_, ?_, ?_⟩
  · intro v hv o2 v' h
    refine vec_many (iface nan mk I) s n i _ _ (c, o2) _ _ _ hn hs v v' hv ?_
    clear hn hs
    cases c <;> first | exact absurd rfl hc | simp [iface, resolve, own, h]
  · intro hf x o2 y h
    refine vec_one (iface nan mk I) s n i _ _ (c, o2) _ _ _ hn hs x y ?_
    clear hn hs hc
    rcases hf with rfl | rfl | rfl | rfl | rfl | rfl <;> simp [iface, resolve, own, h]
  · intro hf x
    refine vec_one_refused (iface nan mk I) s n i _ _ (c, o1) _ _ _ hn hs x ?_
    clear hn hs
    cases c <;> first | exact absurd (by decide) hf | simp [iface, resolve, own, generic]

/-- **C220, partials.** The explicit partials exist for the functional, force and torque outputs; all others but the entropy
refuse and leave the caller's number or vector as it was. -/
theorem C220_partials [Add K] (s : Outs (Obj O)) (n wrt : String) (i : In) (c : Cls) (o o1 : O) (hn : s n = some (c, o))
    (hset : I.setInputs o i = (o1, none)) (hc : c ≠ .entropy) :
    (HasPartial c → (∀ v o2 v', I.partialVec o1 wrt i v = (o2, v', none) →
        (calcOutputPartialVec (iface nan mk I) s n wrt i v).2 = (v', .ok ())) ∧
      (∀ x o2 y, I.partialScalar o1 wrt i = (o2, .ok y) →
        (calcOutputPartial (iface nan mk I) s n wrt i (.num x)).2 = (.num (x + y), .ok ()))) ∧
    (¬ HasPartial c → (∀ v, Refused v (calcOutputPartialVec (iface nan mk I) s n wrt i v).2) ∧
      (∀ x, Refused x (calcOutputPartial (iface nan mk I) s n wrt i x).2)) := by
  have hs := set_inputs nan mk I c o o1 i hset hc
  constructor
  · intro hp
    constructor
    · intro v o2 v' h
      have h' : (iface nan mk I).partialVec (c, o1) wrt i v = ((c, o2), v', none) := by
        clear hn hs hc
        rcases hp with rfl | rfl | rfl <;> simp [iface, resolve, own, h]
      simp [calcOutputPartialVec, hn, hs, h', swallow]
    · intro x o2 y h
      have h' : (iface nan mk I).partialScalar (c, o1) wrt i = ((c, o2), .ok y) := by
        clear hn hs hc
        rcases hp with rfl | rfl | rfl <;> simp [iface, resolve, own, h]
      simp [calcOutputPartial, hn, hs, h']
  · intro hp
    constructor
    · intro v
      have h' : (iface nan mk I).partialVec (c, o1) wrt i v = ((c, o1), v, some .other) := by
        clear hn hs
        cases c <;> first | exact absurd rfl hc | exact absurd (by decide) hp | simp [iface, resolve, own, generic]
      simp [Refused, calcOutputPartialVec, hn, hs, h', swallow]
    · intro x
      have h' : (iface nan mk I).partialScalar (c, o1) wrt i = ((c, o1), .throws .other) := by
        clear hn hs
        cases c <;> first | exact absurd rfl hc | exact absurd (by decide) hp | simp [iface, resolve, own, generic]
      simp [Refused, calcOutputPartial, hn, hs, h']

/-- Options sent to the flux projections after creation are ignored without an exception; every other output but the entropy
receives them. -/
theorem C220_options (s : Outs (Obj O)) (n : String) (opt : Opt) (c : Cls) (o o1 : O) (hn : s n = some (c, o))
    (hopt : I.setOptions o opt = (o1, none)) :
    (setOutputOptions (iface nan mk I) s n opt).2 = .ok () ∧
    (setOutputOptions (iface nan mk I) s n opt).1 n =
      some (if IsProjection c ∨ c = .entropy then (c, o) else (c, o1)) := by
  have h' : (iface nan mk I).setOptions (c, o) opt = (if IsProjection c ∨ c = .entropy then (c, o) else (c, o1), none) := by
    clear hn
    cases c <;> simp [iface, resolve, own, generic, hopt, IsProjection]
  simp only [setOutputOptions, hn, h', swallow, Outs.set, if_true, and_self]

/-! ## Names -/

/-- What the solvers register can always be evaluated by its size, except the flow entropy: for the magnetostatic and thermal
solvers no name gives an entropy, for the flow solvers only `"entropy"` does. -/
theorem C220_names (k : EMOutputs.Kind) (t : EMOutputs.TKind) (f : String) :
    clsM k ≠ .entropy ∧ clsT t ≠ .entropy ∧ ¬ IsField (clsT t) ∧ (clsFlow f = some .entropy ↔ f = "entropy") ∧
    (∀ c, clsFlow f = some c → c = .functional ∨ c = .entropy) ∧
    (IsField (clsM k) ↔ k = .fluxDensity ∨ k = .fluxMagnitude ∨ k = .heatSource) := by
  refine ⟨by cases k <;> decide, by cases t <;> decide, by cases t <;> decide, ?_, ?_, by cases k <;> simp [clsM, IsField]⟩
  · unfold clsFlow
    constructor
    · intro h
      split_ifs at h with h1 h2 h3 h4 h5 <;> first | exact h3 | simp at h
    · rintro rfl; decide
  · intro c h
    unfold clsFlow at h
    split_ifs at h <;> simp_all

/-- Specification: the names that are answered by each class of outputs of the magnetostatic solver. -/
def KindsOf : Cls → List EMOutputs.Kind
  | .functional => [.energy]
  | .force => [.force]
  | .torque => [.torque]
  | .curlProjection => [.fluxDensity]
  | .curlMagProjection => [.fluxMagnitude]
  | .averageCurl => [.averageFluxMagnitude]
  | .ieCurlAggregate => [.maxFluxMagnitude]
  | .ieAggregate => [.maxState]
  | .dcLoss => [.dcLoss]
  | .acLoss => [.acLoss]
  | .coreLoss => [.coreLoss]
  | .mass => [.mass]
  | .volume => [.volume]
  | .heatSource => [.heatSource]
  | .stateAverage | .entropy => []

/-- **C220** Every magnetostatic output is computed by its own class, and the three thermal outputs by theirs: a request for a
maximum is never answered by an average, one for the flux density's maximum never by the state's. -/
theorem C220_classes (c : Cls) (k : EMOutputs.Kind) (t : EMOutputs.TKind) :
    (clsM k = c ↔ k ∈ KindsOf c) ∧ (clsT t = .ieAggregate ↔ t = .maxState) ∧ (clsT t = .stateAverage ↔ t = .averageState) ∧
    (clsT t = .functional ↔ t = .thermalFlux) := by
  refine ⟨by cases k <;> cases c <;> simp [clsM, KindsOf], by cases t <;> simp [clsT], by cases t <;> simp [clsT],
    by cases t <;> simp [clsT]⟩

/-! ## Residuals -/

/-- **C220, solvers.** Linearisation, adjoint solves and residual products run for the magnetostatic solver, the thermal
solver and the mesh warper.  For the flow solvers each of them throws for every input — and the exception is not the one
Python callers can recognise as "not implemented". -/
theorem C220_solver_products (p : Phys) (f : RFn) :
    (call p f = .runs ↔ p = .magnetostatic ∨ p = .thermal ∨ p = .meshWarper) ∧
    (p = .flow ∨ p = .flowControl → call p f = .misoException ∧ pyError (call p f) ≠ some "NotImplementedError") := by
  cases p <;> cases f <;> simp [call, hasOde, ownR, pyError]

/-- **C220, solvers.** Python sees `NotImplementedError` exactly for an operation the library says it does not implement,
`RuntimeError` exactly for its other exceptions. -/
theorem C220_python_errors (e : End) : (pyError e = some "NotImplementedError" ↔ e = .notImplemented) ∧
    (pyError e = some "RuntimeError" ↔ e = .misoException) ∧ (pyError e = none ↔ e = .runs) := by
  cases e <;> simp [pyError]

/-! ## Non-vacuity -/

/-- An implementation whose values record which function ran. -/
def toy : Iface Unit Unit Unit ℤ where
  make _ _ := .ok ()
  size _ := 3
  setInputs o _ := (o, none)
  setOptions o _ := (o, none)
  calcScalar o _ := (o, .ok 7)
  calcVec o _ v := (o, v.map fun _ => 9, none)
  partialScalar o _ _ := (o, .ok 5)
  partialVec o _ _ v := (o, v.map (· + 5), none)
  jvpScalar o _ _ := (o, .ok 2)
  jvpVec o _ _ v := (o, v.map (· + 2), none)
  vjpScalar o _ _ := (o, .ok 4)
  vjpVec o _ _ v := (o, v.map (· + 4), none)

/-- A registry with one output of each behaviour. -/
def toyReg : Outs (Obj Unit) := fun n =>
  if n = "torque" then some (.torque, ()) else if n = "flux_density" then some (.curlProjection, ())
  else if n = "entropy" then some (.entropy, ()) else if n = "heat_source" then some (.heatSource, ()) else none

/-- The interface of the toy outputs, with `-1` for NaN. -/
abbrev toyI : Iface (Obj Unit) Unit Unit ℤ := iface (-1) (fun _ _ => .ok (.functional, ())) toy

example : (calcOutputVec toyI toyReg "torque" () [0]).2 = ([7], .ok ()) ∧
    (calcOutputVec toyI toyReg "flux_density" () [0, 0, 0]).2 = ([9, 9, 9], .ok ()) ∧
    (calcOutputVec toyI toyReg "flux_density" () [0]).2 = ([-1], .ok ()) ∧
    getOutputSize toyI toyReg "entropy" = .ok 3 ∧
    (calcOutputVec toyI toyReg "entropy" () [0, 0, 0]).2 = ([0, 0, 0], .throws .other) ∧
    (calcOutputVec toyI toyReg "entropy" () [0]).2 = ([7], .ok ()) ∧
    (outputVJP toyI toyReg "torque" () [1] "mesh_coords" [1, 1]).2 = ([5, 5], .ok ()) ∧
    (outputVJP toyI toyReg "torque" () [1] "depth" [1]).2 = ([1], .throws .other) ∧
    (outputVJP toyI toyReg "heat_source" () [1] "frequency" [1]).2 = ([5], .ok ()) ∧
    (outputJVP toyI toyReg "flux_density" () [1] "state" [1, 1]).2 = ([1, 1], .throws .other) ∧
    (calcOutputPartialVec toyI toyReg "entropy" "state" () [1, 1]).2 = ([1, 1], .ok ()) := by decide

end Verif.OutputCaps
