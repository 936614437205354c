/-
C203: creating outputs of the magnetostatic and the thermal solver, and how outputs influence each other.
-/
import Verif.EMOutputs
import Mathlib.Tactic.NormNum

namespace Verif.EMOutputs
open Verif.Losses (startsWith)
variable {I : Type}

/-! ### Which output a name denotes -/

/-- Specification: the documented prefixes. -/
def Kind.key : Kind → String
  | .energy => "energy"
  | .force => "force"
  | .torque => "torque"
  | .fluxDensity => "flux_density"
  | .fluxMagnitude => "flux_magnitude"
  | .averageFluxMagnitude => "average_flux_magnitude"
  | .maxFluxMagnitude => "max_flux_magnitude"
  | .maxState => "max_state"
  | .dcLoss => "dc_loss"
  | .acLoss => "ac_loss"
  | .coreLoss => "core_loss"
  | .mass => "mass"
  | .volume => "volume"
  | .heatSource => "heat_source"

/-- Specification: the documented prefixes of the thermal solver. -/
def TKind.key : TKind → String
  | .thermalFlux => "thermal_flux"
  | .maxState => "max_state"
  | .averageState => "average_state"

theorem startsWith_iff (f p : String) : startsWith f p = true ↔ p.toList <+: f.toList := by
  unfold startsWith; exact List.isPrefixOf_iff_prefix

theorem startsWith_self_append (p s : String) : startsWith (p ++ s) p = true := by
  rw [startsWith_iff]; simp

theorem startsWith_nodup {f p q : String} (hp : startsWith f p = true) (hq : startsWith f q = true) :
    p.toList <+: q.toList ∨ q.toList <+: p.toList := by
  rw [startsWith_iff] at hp hq
  exact List.prefix_or_prefix_of_prefix hp hq

theorem key_antichain (a b : Kind) (h : a ≠ b) : ¬ a.key.toList <+: b.key.toList := by
  rw [← List.isPrefixOf_iff_prefix]
  revert h
  cases a <;> cases b <;> decide

theorem tkey_antichain (a b : TKind) (h : a ≠ b) : ¬ a.key.toList <+: b.key.toList := by
  rw [← List.isPrefixOf_iff_prefix]
  revert h
  cases a <;> cases b <;> decide

theorem key_unique {f : String} {a b : Kind} (ha : startsWith f a.key = true) (hb : startsWith f b.key = true) :
    a = b := by
  by_contra h
  rcases startsWith_nodup ha hb with h' | h'
  · exact key_antichain a b h h'
  · exact key_antichain b a (Ne.symm h) h'

theorem tkey_unique {f : String} {a b : TKind} (ha : startsWith f a.key = true) (hb : startsWith f b.key = true) :
    a = b := by
  by_contra h
  rcases startsWith_nodup ha hb with h' | h'
  · exact tkey_antichain a b h h'
  · exact tkey_antichain b a (Ne.symm h) h'

theorem ite_some {α : Type} {b : Bool} {k k' : α} {r : Option α} (h : (if b then some k else r) = some k') :
    (b = true ∧ k = k') ∨ r = some k' := by
  cases b
  · right; simpa using h
  · left; simpa using h

theorem ite_none {α : Type} {b : Bool} {k : α} {r : Option α} (h : (if b then some k else r) = none) :
    b = false ∧ r = none := by
  cases b
  · simpa using h
  · simp at h

theorem classify_some {f : String} {k : Kind} (h : classify f = some k) : startsWith f k.key = true := by
  unfold classify at h
  iterate 14
    rcases ite_some h with ⟨h1, rfl⟩ | h
    · exact h1
  cases h

theorem classify_none {f : String} (h : classify f = none) (k : Kind) : startsWith f k.key = false := by
  unfold classify at h
  obtain ⟨h0, h⟩ := ite_none h
  obtain ⟨h1, h⟩ := ite_none h
  obtain ⟨h2, h⟩ := ite_none h
  obtain ⟨h3, h⟩ := ite_none h
  obtain ⟨h4, h⟩ := ite_none h
  obtain ⟨h5, h⟩ := ite_none h
  obtain ⟨h6, h⟩ := ite_none h
  obtain ⟨h7, h⟩ := ite_none h
  obtain ⟨h8, h⟩ := ite_none h
  obtain ⟨h9, h⟩ := ite_none h
  obtain ⟨h10, h⟩ := ite_none h
  obtain ⟨h11, h⟩ := ite_none h
  obtain ⟨h12, h⟩ := ite_none h
  obtain ⟨h13, h⟩ := ite_none h
  cases k with
  | energy => exact h0
  | force => exact h1
  | torque => exact h2
  | fluxDensity => exact h3
  | fluxMagnitude => exact h4
  | averageFluxMagnitude => exact h5
  | maxFluxMagnitude => exact h6
  | maxState => exact h7
  | dcLoss => exact h8
  | acLoss => exact h9
  | coreLoss => exact h10
  | mass => exact h11
  | volume => exact h12
  | heatSource => exact h13

theorem classifyT_some {f : String} {k : TKind} (h : classifyT f = some k) : startsWith f k.key = true := by
  unfold classifyT at h
  split_ifs at h <;> cases h <;> assumption

theorem classifyT_none {f : String} (h : classifyT f = none) (k : TKind) : startsWith f k.key = false := by
  unfold classifyT at h
  split_ifs at h
  cases k <;> simp only [TKind.key] <;> exact Bool.eq_false_iff.2 (by assumption)

/-- **C203** A name denotes the output whose documented prefix it starts with, whatever follows it and in
whatever order the prefixes are tried: no prefix is a prefix of another. -/
theorem C203_names (f : String) (k : Kind) : classify f = some k ↔ k.key.toList <+: f.toList := by
  rw [← startsWith_iff]
  constructor
  · exact classify_some
  · intro h
    cases hc : classify f with
    | none => rw [classify_none hc k] at h; simp at h
    | some k' => rw [key_unique (classify_some hc) h]

/-- **C203** The same for the thermal solver. -/
theorem C203_thermal_names (f : String) (k : TKind) : classifyT f = some k ↔ k.key.toList <+: f.toList := by
  rw [← startsWith_iff]
  constructor
  · exact classifyT_some
  · intro h
    cases hc : classifyT f with
    | none => rw [classifyT_none hc k] at h; simp at h
    | some k' => rw [tkey_unique (classifyT_some hc) h]

/-- **C203** An unsupported name is refused and nothing changes; so is a name that exists. -/
theorem C203_refused (s : Solver) (f : String) (o : Opts) :
    ((∀ k : Kind, ¬ k.key.toList <+: f.toList) → createOutput s f o = (s, .misoException)) ∧
    ((s.outputs f).isSome → createOutput s f o = (s, .misoException)) := by
  constructor
  · intro h
    have hc : classify f = none := by
      cases hc : classify f with
      | none => rfl
      | some k => exact absurd ((C203_names f k).1 hc) (h k)
    unfold createOutput addOutput
    cases s.outputs f with
    | none => simp [hc]
    | some out => rfl
  · intro h
    obtain ⟨out, ho⟩ := Option.isSome_iff_exists.1 h
    simp [createOutput, ho]

/-! ### Values -/

/-- Specification: the value of an output as its own options describe it. -/
def intended (E : Env I) (current : List (List (List ℤ))) (k : Kind) (o : Opts) (i : I) : ℝ :=
  match k with
  | .force => E.force (.translation (o.attributes.getD []) (o.axis.getD [])) (o.attributes.getD []) i
  | .torque => E.torque (.rotation (o.attributes.getD []) (o.axis.getD []) (o.about.getD [])) (o.attributes.getD []) o.air i
  | .dcLoss => E.other .dcLoss { o with attributes := some current.flatten.flatten } i
  | .acLoss => E.other .acLoss { o with attributes := some current.flatten.flatten } i
  | k => E.other k o i

theorem currentAttributes_eq (s : Solver) : currentAttributes s = s.current.flatten.flatten := by
  have h1 : ∀ (g : List (List ℤ)) (acc : List ℤ), g.foldl (fun acc attrs => acc ++ attrs) acc = acc ++ g.flatten := by
    intro g
    induction g with
    | nil => simp
    | cons a g ih => intro acc; simp [ih]
  have h2 : ∀ (c : List (List (List ℤ))) (acc : List ℤ),
      c.foldl (fun acc group => group.foldl (fun acc attrs => acc ++ attrs) acc) acc = acc ++ c.flatten.flatten := by
    intro c
    induction c with
    | nil => simp
    | cons g c ih => intro acc; rw [List.foldl_cons, h1, ih]; simp
  exact h2 s.current []

theorem emplace_self {α : Type} (m : String → Option α) (k : String) (v : α) (h : m k = none) :
    emplace m k v k = some v := by simp [emplace, h]

/-- **C203** Directly after it has been created, every output has the value its own options describe; the
losses in the windings are taken over the attributes listed under `current`, whatever `attributes` says. -/
theorem C203_fresh (E : Env I) (s s' : Solver) (f : String) (o : Opts) (i : I)
    (h : createOutput s f o = (s', .ok)) :
    ∃ k : Kind, k.key.toList <+: f.toList ∧ calcOutput E s' f i = some (intended E s.current k o i) := by
  unfold createOutput at h
  cases hs : s.outputs f with
  | some out => simp [hs] at h
  | none =>
    rw [hs] at h
    simp only at h
    cases hc : classify f with
    | none => simp [addOutput, hc] at h
    | some k =>
      refine ⟨k, (C203_names f k).1 hc, ?_⟩
      cases k with
      | force =>
        simp only [addOutput, hc, setOptionsForce] at h
        cases ha : o.attributes with
        | none => simp [ha] at h
        | some attrs =>
          cases hx : o.axis with
          | none => simp [ha, hx] at h
          | some axis =>
            simp only [ha, hx] at h
            cases hv : emplace s.fields ("v" ++ f) .zero "vforce" with
            | none => simp [hv] at h
            | some c =>
              simp only [hv] at h
              obtain ⟨rfl, -⟩ := Prod.mk.inj h
              simp [calcOutput, emplace_self _ _ _ hs, put, intended, ha, hx]
      | torque =>
        simp only [addOutput, hc, setOptionsTorque] at h
        cases ha : o.attributes with
        | none => simp [ha] at h
        | some attrs =>
          cases hx : o.axis with
          | none => simp [ha, hx] at h
          | some axis =>
            cases hb : o.about with
            | none => simp [ha, hx, hb] at h
            | some about =>
              simp only [ha, hx, hb] at h
              cases hv : emplace s.fields ("v" ++ f) .zero "vtorque" with
              | none => simp [hv] at h
              | some c =>
                simp only [hv] at h
                obtain ⟨rfl, -⟩ := Prod.mk.inj h
                simp [calcOutput, emplace_self _ _ _ hs, put, intended, ha, hx, hb]
      | fluxMagnitude =>
        simp only [addOutput, hc] at h
        cases hv : s.fields f with
        | none => simp [hv] at h
        | some c =>
          simp only [hv] at h
          obtain ⟨rfl, -⟩ := Prod.mk.inj h
          simp [calcOutput, emplace_self _ _ _ hs, intended]
      | maxState =>
        simp only [addOutput, hc] at h
        cases hst : o.state with
        | none =>
          simp only [hst] at h
          obtain ⟨rfl, -⟩ := Prod.mk.inj h
          simp [calcOutput, emplace_self _ _ _ hs, intended]
        | some name =>
          simp only [hst] at h
          cases hv : s.fields name with
          | none => simp [hv] at h
          | some c =>
            simp only [hv] at h
            obtain ⟨rfl, -⟩ := Prod.mk.inj h
            simp [calcOutput, emplace_self _ _ _ hs, intended]
      | dcLoss =>
        simp only [addOutput, hc] at h
        obtain ⟨rfl, -⟩ := Prod.mk.inj h
        simp [calcOutput, emplace_self _ _ _ hs, intended, currentAttributes_eq]
      | acLoss =>
        simp only [addOutput, hc] at h
        obtain ⟨rfl, -⟩ := Prod.mk.inj h
        simp [calcOutput, emplace_self _ _ _ hs, intended, currentAttributes_eq]
      | _ =>
        simp only [addOutput, hc] at h
        obtain ⟨rfl, -⟩ := Prod.mk.inj h
        simp [calcOutput, emplace_self _ _ _ hs, intended]

/-! ### Independence of outputs -/

/-- The output a call is about. -/
def Op.name : Op → String
  | .create f _ => f
  | .setOptions f _ => f

/-- Two names of which both are forces or both are torques. -/
def SameMotion (f g : String) : Prop :=
  (classify f = some .force ∧ classify g = some .force) ∨ (classify f = some .torque ∧ classify g = some .torque)

/-- In a reachable solver an output has the class its name says. -/
def WF (s : Solver) : Prop := ∀ f out, s.outputs f = some out → classify f = some out.kind

theorem vfield_ne_force {f : String} (h : classify f ≠ some .force) : "vforce" ≠ "v" ++ f := by
  intro e
  have hf : f = "force" := by
    have := congrArg String.toList e
    simp at this
    exact String.ext_iff.2 (by simpa using this.symm)
  exact h (by rw [hf]; decide)

theorem vfield_ne_torque {f : String} (h : classify f ≠ some .torque) : "vtorque" ≠ "v" ++ f := by
  intro e
  have hf : f = "torque" := by
    have := congrArg String.toList e
    simp at this
    exact String.ext_iff.2 (by simpa using this.symm)
  exact h (by rw [hf]; decide)

theorem name_ne {f v : String} {k : Kind} (h : classify f = some k) (hv : ¬ k.key.toList <+: v.toList) : v ≠ f := by
  rintro rfl
  exact hv ((C203_names _ _).1 h)

/-- What one call can change: the entry of its own name, the virtual displacements only for a call of the
same class. -/
theorem step_frame (E : Env I) (s : Solver) (hw : WF s) (op : Op) :
    WF (step E s op) ∧ (∀ f, f ≠ op.name → (step E s op).outputs f = s.outputs f) ∧
    (classify op.name ≠ some .force → (step E s op).fields "vforce" = s.fields "vforce") ∧
    (classify op.name ≠ some .torque → (step E s op).fields "vtorque" = s.fields "vtorque") := by
  have emp : ∀ (o : Out) (g : String), classify g = some o.kind → s.outputs g = none →
      (∀ f out, emplace s.outputs g o f = some out → classify f = some out.kind) ∧
      (∀ f, f ≠ g → emplace s.outputs g o f = s.outputs f) := by
    intro o g hg hn
    refine ⟨fun f out hf => ?_, fun f hf => by simp [emplace, hf]⟩
    unfold emplace at hf
    split_ifs at hf with e
    · rw [hn] at hf; simp only [Option.getD_none, Option.some.injEq] at hf; rw [e, ← hf]; exact hg
    · exact hw f out hf
  cases op with
  | setOptions g o =>
    simp only [step, Op.name, setOutputOptions]
    cases hg : s.outputs g with
    | none => exact ⟨hw, fun _ _ => rfl, fun _ => rfl, fun _ => rfl⟩
    | some out =>
      have hcl := hw g out hg
      have gen : ∀ k, out.kind = k → WF { s with outputs := put s.outputs g { out with opts := E.merge k out.opts o } } ∧
          (∀ f, f ≠ g → put s.outputs g { out with opts := E.merge k out.opts o } f = s.outputs f) := by
        intro k _
        refine ⟨fun f out' hf => ?_, fun f hf => by simp [put, hf]⟩
        simp only [put] at hf
        split_ifs at hf with e
        · cases hf; rw [e]; exact hcl
        · exact hw f out' hf
      cases hk : out.kind with
      | force =>
        rw [hk] at hcl
        simp only [setOptionsForce]
        cases o.attributes <;> cases o.axis <;> cases s.fields "vforce" <;>
          simp_all [WF, put]
      | torque =>
        rw [hk] at hcl
        simp only [setOptionsTorque]
        cases o.attributes <;> cases o.axis <;> cases o.about <;> cases s.fields "vtorque" <;>
          simp_all [WF, put]
      | _ =>
        simp only [hk]
        simp only [hk] at gen
        exact ⟨(gen _ rfl).1, (gen _ rfl).2, fun _ => trivial, fun _ => trivial⟩
  | create g o =>
    simp only [step, Op.name, createOutput]
    cases hg : s.outputs g with
    | some out => exact ⟨hw, fun _ _ => rfl, fun _ => rfl, fun _ => rfl⟩
    | none =>
      simp only [addOutput]
      cases hc : classify g with
      | none => exact ⟨hw, fun _ _ => rfl, fun _ => rfl, fun _ => rfl⟩
      | some k =>
        cases k with
        | force =>
          have hv := vfield_ne_torque (f := g) (by rw [hc]; simp)
          have e := emp { kind := .force, attrs := o.attributes.getD [] } g hc hg
          have ef : emplace s.fields ("v" ++ g) Content.zero "vtorque" = s.fields "vtorque" := by
            simp only [emplace]; exact if_neg hv
          simp only [setOptionsForce]
          cases ha : o.attributes with
          | none => exact ⟨hw, fun _ _ => rfl, fun h => absurd rfl h, fun _ => ef⟩
          | some attrs =>
            cases hx : o.axis with
            | none => exact ⟨hw, fun _ _ => rfl, fun h => absurd rfl h, fun _ => ef⟩
            | some axis =>
              simp only []
              cases hvf : emplace s.fields ("v" ++ g) Content.zero "vforce" with
              | none => exact ⟨hw, fun _ _ => rfl, fun h => absurd rfl h, fun _ => ef⟩
              | some c =>
                rw [ha] at e
                exact ⟨e.1, e.2, fun h => absurd rfl h, fun _ => by simp only [put]; rw [if_neg (by decide)]; exact ef⟩
        | torque =>
          have hv := vfield_ne_force (f := g) (by rw [hc]; simp)
          have e := emp { kind := .torque, attrs := o.attributes.getD [], air := o.air } g hc hg
          have ef : emplace s.fields ("v" ++ g) Content.zero "vforce" = s.fields "vforce" := by
            simp only [emplace]; exact if_neg hv
          simp only [setOptionsTorque]
          cases ha : o.attributes with
          | none => exact ⟨hw, fun _ _ => rfl, fun _ => ef, fun h => absurd rfl h⟩
          | some attrs =>
            cases hx : o.axis with
            | none => exact ⟨hw, fun _ _ => rfl, fun _ => ef, fun h => absurd rfl h⟩
            | some axis =>
              cases hb : o.about with
              | none => exact ⟨hw, fun _ _ => rfl, fun _ => ef, fun h => absurd rfl h⟩
              | some about =>
                simp only []
                cases hvf : emplace s.fields ("v" ++ g) Content.zero "vtorque" with
                | none => exact ⟨hw, fun _ _ => rfl, fun _ => ef, fun h => absurd rfl h⟩
                | some c =>
                  rw [ha] at e
                  exact ⟨e.1, e.2, fun _ => by simp only [put]; rw [if_neg (by decide)]; exact ef, fun h => absurd rfl h⟩
        | fluxDensity =>
          have e := emp { kind := .fluxDensity, opts := o } g hc hg
          refine ⟨e.1, e.2, fun _ => ?_, fun _ => ?_⟩ <;> simp only [emplace]
          · exact if_neg (name_ne hc (by decide))
          · exact if_neg (name_ne hc (by decide))
        | fluxMagnitude =>
          have e := emp { kind := .fluxMagnitude, opts := o } g hc hg
          simp only []
          cases s.fields g with
          | none => exact ⟨hw, fun _ _ => rfl, fun _ => rfl, fun _ => rfl⟩
          | some c => exact ⟨e.1, e.2, fun _ => rfl, fun _ => rfl⟩
        | maxState =>
          have e := emp { kind := .maxState, opts := o } g hc hg
          simp only []
          cases o.state with
          | none => exact ⟨e.1, e.2, fun _ => rfl, fun _ => rfl⟩
          | some name =>
            simp only []
            cases s.fields name with
            | none => exact ⟨hw, fun _ _ => rfl, fun _ => rfl, fun _ => rfl⟩
            | some c => exact ⟨e.1, e.2, fun _ => rfl, fun _ => rfl⟩
        | dcLoss =>
          have e := emp { kind := .dcLoss, opts := { o with attributes := some (currentAttributes s) } } g hc hg
          exact ⟨e.1, e.2, fun _ => rfl, fun _ => rfl⟩
        | acLoss =>
          have e := emp { kind := .acLoss, opts := { o with attributes := some (currentAttributes s) } } g hc hg
          exact ⟨e.1, e.2, fun _ => rfl, fun _ => rfl⟩
        | energy | averageFluxMagnitude | maxFluxMagnitude | coreLoss | mass | volume | heatSource =>
          exact ⟨(emp _ g hc hg).1, (emp _ g hc hg).2, fun _ => rfl, fun _ => rfl⟩

/-- **C203, partial** Creating outputs and setting their options, successfully or not, does not change the
value of an output of another name, unless both are forces or both are torques. -/
theorem C203_independent_partial (E : Env I) (s : Solver) (hw : WF s) (f : String) (i : I) (h : List Op)
    (hne : ∀ op ∈ h, op.name ≠ f ∧ ¬ SameMotion f op.name) :
    calcOutput E (run E s h) f i = calcOutput E s f i ∧ WF (run E s h) := by
  induction h generalizing s with
  | nil => exact ⟨rfl, hw⟩
  | cons op h ih =>
    obtain ⟨hw', ho, hf, ht⟩ := step_frame E s hw op
    obtain ⟨h1, h2⟩ := hne op (by simp)
    obtain ⟨e, w⟩ := ih (step E s op) hw' fun op' hop => hne op' (List.mem_cons_of_mem _ hop)
    refine ⟨e.trans ?_, w⟩
    unfold calcOutput
    rw [ho f (Ne.symm h1)]
    cases hout : s.outputs f with
    | none => rfl
    | some out =>
      have hcl := hw f out hout
      cases hk : out.kind with
      | force =>
        rw [hk] at hcl
        simp only [hk]
        rw [hf fun hc => h2 (Or.inl ⟨hcl, hc⟩)]
      | torque =>
        rw [hk] at hcl
        simp only [hk]
        rw [ht fun hc => h2 (Or.inr ⟨hcl, hc⟩)]
      | _ => simp only [hk]

/-- The fields of a magnetostatic solver that has no outputs yet. -/
def newSolver (current : List (List (List ℤ))) : Solver where
  fields x := if x = "state" ∨ x = "adjoint" ∨ x = "mesh_coords" ∨ x = "temperature" ∨ x = "flux_magnitude" ∨
    x = "peak_flux" then some .other else none
  outputs _ := none
  current := current

theorem newSolver_wf (c : List (List (List ℤ))) : WF (newSolver c) := by intro f out h; simp [newSolver] at h

/-- **C203, partial** Over a whole session: an output keeps the value its own options describe until its
options are set anew, or another force (torque) is created or set. -/
theorem C203_session_partial (E : Env I) (current : List (List (List ℤ))) (h1 h2 : List Op) (f : String) (o : Opts) (i : I)
    (hok : (createOutput (run E (newSolver current) h1) f o).2 = .ok)
    (hne : ∀ op ∈ h2, op.name ≠ f ∧ ¬ SameMotion f op.name) :
    ∃ k : Kind, k.key.toList <+: f.toList ∧
      calcOutput E (run E (newSolver current) (h1 ++ .create f o :: h2)) f i =
        some (intended E (run E (newSolver current) h1).current k o i) := by
  have hw1 : ∀ (h : List Op) (s : Solver), WF s → WF (run E s h) := by
    intro h
    induction h with
    | nil => exact fun _ hw => hw
    | cons op h ih => exact fun s hw => ih _ (step_frame E s hw op).1
  obtain ⟨k, hk, hv⟩ := C203_fresh E (run E (newSolver current) h1) (createOutput (run E (newSolver current) h1) f o).1 f o i
    (Prod.ext rfl hok)
  refine ⟨k, hk, ?_⟩
  have : run E (newSolver current) (h1 ++ .create f o :: h2) =
      run E (createOutput (run E (newSolver current) h1) f o).1 h2 := by
    simp [run, List.foldl_append, step]
  rw [this, (C203_independent_partial E _ ?_ f i h2 hne).1]
  · exact hv
  · exact (step_frame E _ (hw1 h1 _ (newSolver_wf current)) (.create f o)).1

/-- Options of a torque. -/
def torqueOn (attrs : List ℤ) (z : ℝ) : Opts :=
  { attributes := some attrs, axis := some [0, 0, z], about := some [0, 0, 0] }

/-- Evaluation that shows which rotation was used. -/
def showEnv : Env Unit where
  force v a _ := match v with
    | .translation b _ => if a = b then 1 else 0
    | _ => 0
  torque v _ _ _ := match v with
    | .rotation _ axis _ => axis.sum
    | _ => 0
  other _ _ _ := 0
  merge _ _ o := o

theorem cl_torque : classify "torque" = some .torque := by decide
theorem cl_torque2 : classify "torque_housing" = some .torque := by decide
theorem cl_force : classify "force" = some .force := by decide

/-- **C203, violation** A second torque output silently changes the value of the first: both read the one
field that the construction of the second has projected anew. -/
theorem C203_second_torque_false :
    calcOutput showEnv (run showEnv (newSolver []) [.create "torque" (torqueOn [1] 1)]) "torque" () = some 1 ∧
    calcOutput showEnv (run showEnv (newSolver [])
      [.create "torque" (torqueOn [1] 1), .create "torque_housing" (torqueOn [2] (-1))]) "torque" () = some (-1) := by
  constructor <;>
    simp [run, step, createOutput, addOutput, cl_torque, cl_torque2, newSolver, setOptionsTorque, emplace, put,
      torqueOn, calcOutput, showEnv]

/-- **C203, violation** A torque or force whose name has a suffix cannot be created before the one without:
whatever its options, the call throws, no output results, and an unused field stays behind. -/
theorem C203_suffix_false (current : List (List (List ℤ))) (f : String) (o : Opts) (k : Kind)
    (hk : k = .force ∨ k = .torque) (hf : k.key.toList <+: f.toList) (hne : f ≠ k.key) :
    ∃ s, createOutput (newSolver current) f o = (s, if o.attributes.isSome ∧ o.axis.isSome ∧ (k = .force ∨ o.about.isSome)
        then .outOfRange else .missing) ∧
      s.outputs f = none ∧ (s.fields ("v" ++ f)).isSome := by
  have hc := (C203_names f k).2 hf
  rcases hk with rfl | rfl
  · have hv : "vforce" ≠ "v" ++ f := by
      intro e
      apply hne
      have := congrArg String.toList e
      simp at this
      exact String.ext_iff.2 (by simpa [Kind.key] using this.symm)
    have hem : emplace (newSolver current).fields ("v" ++ f) Content.zero "vforce" = none := by
      simp only [emplace]; rw [if_neg hv]; simp [newSolver]
    refine ⟨{ newSolver current with fields := emplace (newSolver current).fields ("v" ++ f) .zero }, ?_, rfl, by simp [emplace]⟩
    simp only [createOutput, show (newSolver current).outputs f = none from rfl, addOutput, hc, setOptionsForce]
    cases ha : o.attributes <;> cases hx : o.axis <;> simp [hem]
  · have hv : "vtorque" ≠ "v" ++ f := by
      intro e
      apply hne
      have := congrArg String.toList e
      simp at this
      exact String.ext_iff.2 (by simpa [Kind.key] using this.symm)
    have hem : emplace (newSolver current).fields ("v" ++ f) Content.zero "vtorque" = none := by
      simp only [emplace]; rw [if_neg hv]; simp [newSolver]
    refine ⟨{ newSolver current with fields := emplace (newSolver current).fields ("v" ++ f) .zero }, ?_, rfl, by simp [emplace]⟩
    simp only [createOutput, show (newSolver current).outputs f = none from rfl, addOutput, hc, setOptionsTorque]
    cases ha : o.attributes <;> cases hx : o.axis <;> cases hb : o.about <;> simp [hem]

/-- **C203, violation** Setting new options on a force does not give the value of a force with those
options: the integrator keeps the attributes of the construction. -/
theorem C203_new_options_false :
    let o1 : Opts := { attributes := some [1], axis := some [1, 0, 0] }
    let o2 : Opts := { attributes := some [2], axis := some [1, 0, 0] }
    let s := run showEnv (newSolver []) [.create "force" o1]
    (setOutputOptions showEnv s "force" o2).2 = .ok ∧
      calcOutput showEnv (setOutputOptions showEnv s "force" o2).1 "force" () = some 0 ∧
      intended showEnv [] .force o2 () = 1 := by
  refine ⟨?_, ?_, ?_⟩ <;>
    simp [run, step, createOutput, addOutput, cl_force, newSolver, setOptionsForce, emplace, put, calcOutput, showEnv,
      setOutputOptions, intended]

/-- **C203, partial** Setting new options with the attributes it was created with gives the value of an output
with the new options. -/
theorem C203_new_options_partial (E : Env I) (s : Solver) (f : String) (out : Out) (o : Opts) (i : I)
    (hs : s.outputs f = some out) (hok : (setOutputOptions E s f o).2 = .ok)
    (ha : o.attributes = some out.attrs) (hair : o.air = out.air) (hk : out.kind = .force ∨ out.kind = .torque) :
    calcOutput E (setOutputOptions E s f o).1 f i = some (intended E s.current out.kind o i) := by
  rcases hk with hk | hk
  · simp only [setOutputOptions, hs, hk, setOptionsForce, ha] at hok ⊢
    cases hx : o.axis with
    | none => simp [hx] at hok
    | some axis =>
      simp only [hx] at hok ⊢
      cases hv : s.fields "vforce" with
      | none => simp [hv] at hok
      | some c => simp [calcOutput, hs, hk, put, intended, ha, hx]
  · simp only [setOutputOptions, hs, hk, setOptionsTorque, ha] at hok ⊢
    cases hx : o.axis with
    | none => simp [hx] at hok
    | some axis =>
      cases hb : o.about with
      | none => simp [hx, hb] at hok
      | some about =>
        simp only [hx, hb] at hok ⊢
        cases hv : s.fields "vtorque" with
        | none => simp [hv] at hok
        | some c => simp [calcOutput, hs, hk, put, intended, ha, hx, hb, hair]

/-- The hypotheses are met: torque, then force, energy and a failing name; the torque keeps its value. -/
example : ∃ h2 : List Op, h2.length = 3 ∧ (∀ op ∈ h2, op.name ≠ "torque" ∧ ¬ SameMotion "torque" op.name) ∧
    (createOutput (run showEnv (newSolver [[[3, 4]], [[5]]]) []) "torque" (torqueOn [1] 1)).2 = .ok := by
  refine ⟨[.create "force" { attributes := some [1], axis := some [1, 0, 0] }, .create "energy" {}, .create "nonsense" {}],
    rfl, ?_, ?_⟩
  · intro op hop
    simp only [List.mem_cons, List.not_mem_nil, or_false] at hop
    rcases hop with rfl | rfl | rfl <;> exact ⟨by decide, by unfold SameMotion; decide⟩
  · simp [run, createOutput, addOutput, cl_torque, newSolver, setOptionsTorque, emplace, torqueOn]

/-- **C203** The thermal solver: an output of a supported name is registered with its options, provided the field
whose maximum or average it takes is known; everything else is left alone. -/
theorem C203_thermal (fields : String → Option Content) (outs : String → Option (TKind × Opts)) (f : String) (o : Opts)
    (hn : outs f = none) :
    ((addOutputT fields outs f o).2 = .ok ↔ ∃ k : TKind, k.key.toList <+: f.toList ∧
      (k = .thermalFlux ∨ ∀ n, o.state = some n → (fields n).isSome)) ∧
    (∀ g, g ≠ f → (addOutputT fields outs f o).1 g = outs g) ∧
    ((addOutputT fields outs f o).2 = .ok → ∃ k : TKind, k.key.toList <+: f.toList ∧
      (addOutputT fields outs f o).1 f = some (k, o)) ∧
    ((addOutputT fields outs f o).2 ≠ .ok → (addOutputT fields outs f o).1 = outs) := by
  cases hc : classifyT f with
  | none =>
    have : ∀ k : TKind, ¬ k.key.toList <+: f.toList := fun k h => by
      have := (C203_thermal_names f k).2 h; rw [hc] at this; cases this
    simp [addOutputT, hc, this]
  | some k =>
    have hk := (C203_thermal_names f k).1 hc
    have hu : ∀ k' : TKind, k'.key.toList <+: f.toList → k' = k := fun k' h => by
      have := (C203_thermal_names f k').2 h; rw [hc] at this; cases this; rfl
    have hem : ∀ v g, g ≠ f → emplace outs f v g = outs g := fun v g h => by simp [emplace, h]
    cases k with
    | thermalFlux =>
      simp only [addOutputT, hc]
      exact ⟨by simp only [true_iff]; exact ⟨_, hk, Or.inl rfl⟩, hem _, fun _ => ⟨_, hk, emplace_self _ _ _ hn⟩, by simp⟩
    | maxState | averageState =>
      simp only [addOutputT, hc]
      cases hst : o.state with
      | none =>
        simp only []
        exact ⟨by simp only [true_iff]; exact ⟨_, hk, Or.inr (by simp)⟩, hem _, fun _ => ⟨_, hk, emplace_self _ _ _ hn⟩, by simp⟩
      | some n =>
        simp only []
        by_cases hfn : (fields n).isSome
        · simp only [hfn, if_true]
          exact ⟨by simp only [true_iff]; exact ⟨_, hk, Or.inr (by rintro m hm; cases hm; exact hfn)⟩, hem _,
            fun _ => ⟨_, hk, emplace_self _ _ _ hn⟩, by simp⟩
        · simp only [hfn]
          refine ⟨?_, fun _ _ => rfl, by simp, fun _ => rfl⟩
          simp only [Bool.false_eq_true, if_false, reduceCtorEq, false_iff, not_exists, not_and, not_or, not_forall]
          intro k' hk'
          rw [hu k' hk']
          exact ⟨by simp, n, rfl, hfn⟩

end Verif.EMOutputs
