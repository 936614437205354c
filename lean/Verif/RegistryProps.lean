import Verif.Registry

/-!
# Output registry: property theorems (C28)
-/

namespace Verif.Registry

variable {O In Opt K : Type}

/-- Specification: a name is registered after a history iff some `create` of that name had a constructor that succeeds. -/
def Created (I : Iface O In Opt K) (ops : List (Op In Opt K)) (n : String) : Prop :=
  ∃ opt o, Op.create n opt ∈ ops ∧ I.make n opt = .ok o

private theorem set_isSome (s : Outs O) (n : String) (o : O) (m : String) :
    ((s.set n o) m).isSome = true ↔ (m = n ∨ (s m).isSome = true) := by
  unfold Outs.set; by_cases h : m = n <;> simp [h]

private theorem vecOp_reg (I : Iface O In Opt K) (s : Outs O) (n : String) (i : In)
    (f : O → O × Outcome K) (g : O → List K → O × List K × Option Err) (c : K → K → K) (out : List K) :
    ((vecOp I s n i f g c out).1 = s ∧ s n = none) ∨ ∃ o o', s n = some o ∧ (vecOp I s n i f g c out).1 = s.set n o' := by
  unfold vecOp
  cases hn : s n with
  | none => exact Or.inl ⟨rfl, rfl⟩
  | some o =>
    refine Or.inr ⟨o, ?_⟩
    simp only
    generalize I.setInputs o i = q
    obtain ⟨o1, e⟩ := q
    cases e with
    | some e => exact ⟨o1, trivial, rfl⟩
    | none =>
      simp only
      split
      · split
        · exact ⟨_, trivial, rfl⟩
        · exact ⟨_, trivial, rfl⟩
      · exact ⟨_, trivial, rfl⟩

/-- Every call either leaves the registry alone or replaces the object of its own name. -/
private theorem run_reg [Add K] (I : Iface O In Opt K) (s : Outs O) (op : Op In Opt K) :
    (run I s op).1 = s ∨ ∃ o', (run I s op).1 = s.set op.name o' ∧
      ((s op.name).isSome = true ∨ ∃ opt, op = .create op.name opt ∧ I.make op.name opt = .ok o') := by
  cases op with
  | create n opt =>
    simp only [run, createOutput, Op.name]
    cases hn : s n with
    | some o => exact Or.inl rfl
    | none =>
      cases hm : I.make n opt with
      | ok o => exact Or.inr ⟨o, rfl, Or.inr ⟨opt, rfl, hm⟩⟩
      | throws e => exact Or.inl rfl
  | size n => exact Or.inl rfl
  | setOptions n opt =>
    simp only [run, setOutputOptions, Op.name]
    cases hn : s n with
    | none => exact Or.inl rfl
    | some o => exact Or.inr ⟨_, rfl, Or.inl rfl⟩
  | eval n i =>
    simp only [run, calcOutput, Op.name]
    cases hn : s n with
    | none => exact Or.inl rfl
    | some o =>
      refine Or.inr ?_
      simp only
      split
      · exact ⟨_, rfl, Or.inl rfl⟩
      · exact ⟨_, rfl, Or.inl rfl⟩
      · split <;> exact ⟨_, rfl, Or.inl rfl⟩
  | calcVec n i out =>
    simp only [run, calcOutputVec, Op.name]
    rcases vecOp_reg I s n i (fun o => I.calcScalar o i) (fun o v => I.calcVec o i v) (fun _ y => y) out with
      ⟨h, _⟩ | ⟨o, o', h1, h2⟩
    · exact Or.inl h
    · exact Or.inr ⟨o', h2, Or.inl (by simp [h1])⟩
  | part n wrt i p =>
    simp only [run, calcOutputPartial, Op.name]
    cases hn : s n with
    | none => exact Or.inl rfl
    | some o =>
      refine Or.inr ?_
      simp only
      split
      · exact ⟨_, rfl, Or.inl rfl⟩
      · exact ⟨_, rfl, Or.inl rfl⟩
      · split <;> exact ⟨_, rfl, Or.inl rfl⟩
  | partVec n wrt i p =>
    simp only [run, calcOutputPartialVec, Op.name]
    cases hn : s n with
    | none => exact Or.inl rfl
    | some o =>
      refine Or.inr ?_
      simp only
      split <;> exact ⟨_, rfl, Or.inl rfl⟩
  | jvp n i d wrt out =>
    simp only [run, outputJVP, Op.name]
    rcases vecOp_reg I s n i (fun o => I.jvpScalar o d wrt) (fun o v => I.jvpVec o d wrt v) (· + ·) out with
      ⟨h, _⟩ | ⟨o, o', h1, h2⟩
    · exact Or.inl h
    · exact Or.inr ⟨o', h2, Or.inl (by simp [h1])⟩
  | vjp n i d wrt out =>
    simp only [run, outputVJP, Op.name]
    rcases vecOp_reg I s n i (fun o => I.vjpScalar o d wrt) (fun o v => I.vjpVec o d wrt v) (· + ·) out with
      ⟨h, _⟩ | ⟨o, o', h1, h2⟩
    · exact Or.inl h
    · exact Or.inr ⟨o', h2, Or.inl (by simp [h1])⟩

/-- **C28** After any history of calls starting from an empty registry, exactly the names whose construction
succeeded at some point are registered. -/
theorem C28_registered_iff_created [Add K] (I : Iface O In Opt K) (ops : List (Op In Opt K)) (n : String) :
    (runAll I (fun _ => none) ops n).isSome = true ↔ Created I ops n := by
  suffices h : ∀ (s : Outs O), (runAll I s ops n).isSome = true ↔ ((s n).isSome = true ∨ Created I ops n) by
    simpa using h (fun _ => none)
  induction ops with
  | nil => intro s; simp [runAll, Created]
  | cons op ops ih =>
    intro s
    have hstep : runAll I s (op :: ops) = runAll I (run I s op).1 ops := rfl
    rw [hstep, ih]
    have hc : Created I (op :: ops) n ↔ ((∃ opt o, op = .create n opt ∧ I.make n opt = .ok o) ∨ Created I ops n) := by
      unfold Created
      constructor
      · rintro ⟨opt, o, h, hm⟩
        rcases List.mem_cons.mp h with h | h
        · exact Or.inl ⟨opt, o, h.symm, hm⟩
        · exact Or.inr ⟨opt, o, h, hm⟩
      · rintro (⟨opt, o, h, hm⟩ | ⟨opt, o, h, hm⟩)
        · exact ⟨opt, o, by simp [h], hm⟩
        · exact ⟨opt, o, by simp [h], hm⟩
    rw [hc]
    have key : ((run I s op).1 n).isSome = true ↔
        ((s n).isSome = true ∨ ∃ opt o, op = .create n opt ∧ I.make n opt = .ok o) := by
      constructor
      · intro h
        rcases run_reg I s op with e | ⟨o', e, hh⟩
        · rw [e] at h; exact Or.inl h
        · rw [e, set_isSome] at h
          rcases h with rfl | h
          · rcases hh with hh | ⟨opt, h1, h2⟩
            · exact Or.inl hh
            · exact Or.inr ⟨opt, o', h1, h2⟩
          · exact Or.inl h
      · rintro (h | ⟨opt, o, rfl, hm⟩)
        · rcases run_reg I s op with e | ⟨o', e, _⟩
          · rw [e]; exact h
          · rw [e, set_isSome]; exact Or.inr h
        · simp only [run, createOutput]
          cases hn : s n with
          | some o => simp [hn]
          | none => simp [hm, Outs.set]
    rw [key, or_assoc]

/-- **C28** A call concerning one output never changes any other registered output. -/
theorem C28_other_outputs_untouched [Add K] (I : Iface O In Opt K) (s : Outs O) (op : Op In Opt K)
    (m : String) (hm : m ≠ op.name) : (run I s op).1 m = s m := by
  rcases run_reg I s op with e | ⟨o', e, _⟩
  · rw [e]
  · rw [e]; simp [Outs.set, hm]

/-- **C28** Creating an output under an existing name throws and changes nothing. -/
theorem C28_duplicate_throws (I : Iface O In Opt K) (s : Outs O) (n : String) (opt : Opt) (o : O)
    (h : s n = some o) : createOutput I s n opt = (s, .throws .other) := by
  simp [createOutput, h]

/-- **C28** Any operation other than creation on an unknown output throws and changes nothing. -/
theorem C28_unknown_throws [Add K] (I : Iface O In Opt K) (s : Outs O) (op : Op In Opt K)
    (hop : ∀ n opt, op ≠ .create n opt) (h : s op.name = none) : run I s op = (s, .throws .other) := by
  cases op with
  | create n opt => exact absurd rfl (hop n opt)
  | _ => all_goals
      simp only [Op.name] at h
      simp [run, getOutputSize, setOutputOptions, calcOutput, calcOutputVec, vecOp, calcOutputPartial,
        calcOutputPartialVec, outputJVP, outputVJP, h, void]

/-- **C28** With a result vector of size one the scalar forms are used: evaluation overwrites the entry, Jacobian-vector and
vector-Jacobian products add to it; with any other size the vector forms get the vector. -/
theorem C28_dispatch [Add K] (I : Iface O In Opt K) (s : Outs O) (n : String) (i : In) (o o1 : O)
    (hn : s n = some o) (hset : I.setInputs o i = (o1, none)) :
    (∀ x o2 y, I.calcScalar o1 i = (o2, .ok y) →
      (calcOutputVec I s n i [x]).2 = ([y], .ok ())) ∧
    (∀ x dot wrt o2 y, I.jvpScalar o1 dot wrt = (o2, .ok y) →
      (outputJVP I s n i dot wrt [x]).2 = ([x + y], .ok ())) ∧
    (∀ x bar wrt o2 y, I.vjpScalar o1 bar wrt = (o2, .ok y) →
      (outputVJP I s n i bar wrt [x]).2 = ([x + y], .ok ())) ∧
    (∀ out : List K, out.length ≠ 1 →
      (∀ o2 out', I.calcVec o1 i out = (o2, out', none) → (calcOutputVec I s n i out).2 = (out', .ok ())) ∧
      (∀ dot wrt o2 out', I.jvpVec o1 dot wrt out = (o2, out', none) →
        (outputJVP I s n i dot wrt out).2 = (out', .ok ())) ∧
      (∀ bar wrt o2 out', I.vjpVec o1 bar wrt out = (o2, out', none) →
        (outputVJP I s n i bar wrt out).2 = (out', .ok ()))) := by
  refine ⟨?_, ?_, ?_, ?_⟩
  · intro x o2 y h; simp [calcOutputVec, vecOp, hn, hset, h]
  · intro x d w o2 y h; simp [outputJVP, vecOp, hn, hset, h]
  · intro x d w o2 y h; simp [outputVJP, vecOp, hn, hset, h]
  · intro out hout
    match out, hout with
    | [], _ =>
      refine ⟨?_, ?_, ?_⟩
      · intro o2 out' h; simp [calcOutputVec, vecOp, hn, hset, h, swallow]
      · intro d w o2 out' h; simp [outputJVP, vecOp, hn, hset, h, swallow]
      · intro d w o2 out' h; simp [outputVJP, vecOp, hn, hset, h, swallow]
    | _ :: _ :: _, _ =>
      refine ⟨?_, ?_, ?_⟩
      · intro o2 out' h; simp [calcOutputVec, vecOp, hn, hset, h, swallow]
      · intro d w o2 out' h; simp [outputJVP, vecOp, hn, hset, h, swallow]
      · intro d w o2 out' h; simp [outputVJP, vecOp, hn, hset, h, swallow]

/-- **C28** A scalar evaluation returns the output's value (at the object that has received the inputs), and a scalar partial is
added to what the caller passed in; the vector partial gets the caller's vector. -/
theorem C28_scalar_results [Add K] (I : Iface O In Opt K) (s : Outs O) (n wrt : String) (i : In) (o o1 : O)
    (hn : s n = some o) (hset : I.setInputs o i = (o1, none)) :
    (∀ o2 y, I.calcScalar o1 i = (o2, .ok y) → calcOutput I s n i = (s.set n o2, .ok (.num y))) ∧
    (∀ o2 x y, I.partialScalar o1 wrt i = (o2, .ok y) →
      calcOutputPartial I s n wrt i (.num x) = (s.set n o2, .num (x + y), .ok ())) ∧
    (∀ o2 part part', I.partialVec o1 wrt i part = (o2, part', none) →
      calcOutputPartialVec I s n wrt i part = (s.set n o2, part', .ok ())) := by
  refine ⟨?_, ?_, ?_⟩
  · intro o2 y h; simp [calcOutput, hn, hset, h]
  · intro o2 x y h; simp [calcOutputPartial, hn, hset, h]
  · intro o2 p p' h; simp [calcOutputPartialVec, hn, hset, h, swallow]

/-- **C28** Every failure other than `std::out_of_range` reaches the caller: of setting inputs or options, and of each evaluation. -/
theorem C28_errors_reported [Add K] (I : Iface O In Opt K) (s : Outs O) (op : Op In Opt K) (o : O)
    (hn : s op.name = some o) :
    (∀ n opt o1, op = .setOptions n opt → I.setOptions o opt = (o1, some .other) →
      (run I s op).2 = .throws .other) ∧
    (∀ i o1, I.setInputs o i = (o1, some .other) →
      (∀ n, op = .eval n i → (run I s op).2 = .throws .other) ∧
      (∀ n out, op = .calcVec n i out → (run I s op).2 = .throws .other) ∧
      (∀ n wrt p, op = .part n wrt i p → (run I s op).2 = .throws .other) ∧
      (∀ n wrt p, op = .partVec n wrt i p → (run I s op).2 = .throws .other) ∧
      (∀ n d wrt out, op = .jvp n i d wrt out → (run I s op).2 = .throws .other) ∧
      (∀ n b wrt out, op = .vjp n i b wrt out → (run I s op).2 = .throws .other)) ∧
    (∀ i o1, I.setInputs o i = (o1, none) →
      (∀ n o2, op = .eval n i → I.calcScalar o1 i = (o2, .throws .other) → (run I s op).2 = .throws .other) ∧
      (∀ n x o2, op = .calcVec n i [x] → I.calcScalar o1 i = (o2, .throws .other) →
        (run I s op).2 = .throws .other) ∧
      (∀ n wrt p o2, op = .part n wrt i p → I.partialScalar o1 wrt i = (o2, .throws .other) →
        (run I s op).2 = .throws .other) ∧
      (∀ n wrt p o2 p', op = .partVec n wrt i p → I.partialVec o1 wrt i p = (o2, p', some .other) →
        (run I s op).2 = .throws .other) ∧
      (∀ n d wrt x o2, op = .jvp n i d wrt [x] → I.jvpScalar o1 d wrt = (o2, .throws .other) →
        (run I s op).2 = .throws .other) ∧
      (∀ n b wrt x o2, op = .vjp n i b wrt [x] → I.vjpScalar o1 b wrt = (o2, .throws .other) →
        (run I s op).2 = .throws .other)) := by
  refine ⟨?_, ?_, ?_⟩
  · rintro n opt o1 rfl h
    simp only [Op.name] at hn
    simp [run, setOutputOptions, hn, h, swallow]
  · intro i o1 h
    refine ⟨?_, ?_, ?_, ?_, ?_, ?_⟩ <;> intros <;> subst_vars <;> simp only [Op.name] at hn <;>
      simp [run, calcOutput, calcOutputVec, calcOutputPartial, calcOutputPartialVec, outputJVP, outputVJP, vecOp,
        hn, h, swallow, void]
  · intro i o1 h
    refine ⟨?_, ?_, ?_, ?_, ?_, ?_⟩
    all_goals
      intros
      subst_vars
      simp only [Op.name] at hn
      simp_all [run, calcOutput, calcOutputVec, calcOutputPartial, calcOutputPartialVec, outputJVP, outputVJP, vecOp,
        swallow, void]

/-- **C28 (violated: errors are reported)** If evaluating an output fails with `std::out_of_range` — as when a derivative is requested with
respect to an input the output does not know — the call returns normally and a one-entry result vector
keeps its old content; a scalar evaluation returns NaN. -/
theorem C28_false_failure_swallowed [Add K] (I : Iface O In Opt K) (s : Outs O) (n : String) (i : In)
    (o o1 o2 : O) (hn : s n = some o) (hset : I.setInputs o i = (o1, none)) :
    (I.calcScalar o1 i = (o2, .throws .outOfRange) →
      (∀ x, (calcOutputVec I s n i [x]).2 = ([x], .ok ())) ∧ (calcOutput I s n i).2 = .ok .nan) ∧
    (∀ wrt p, I.partialScalar o1 wrt i = (o2, .throws .outOfRange) →
      (calcOutputPartial I s n wrt i p).2 = (.nan, .ok ())) ∧
    (∀ dot wrt x, I.jvpScalar o1 dot wrt = (o2, .throws .outOfRange) →
      (outputJVP I s n i dot wrt [x]).2 = ([x], .ok ())) ∧
    (∀ bar wrt x, I.vjpScalar o1 bar wrt = (o2, .throws .outOfRange) →
      (outputVJP I s n i bar wrt [x]).2 = ([x], .ok ())) := by
  refine ⟨?_, ?_, ?_, ?_⟩
  · intro h; exact ⟨fun x => by simp [calcOutputVec, vecOp, hn, hset, h, swallow], by simp [calcOutput, hn, hset, h]⟩
  · intro w p h; simp [calcOutputPartial, hn, hset, h]
  · intro d w x h; simp [outputJVP, vecOp, hn, hset, h, swallow]
  · intro d w x h; simp [outputVJP, vecOp, hn, hset, h, swallow]

/-- **C28 (violated: errors are reported)** The same if *setting the inputs* fails with `std::out_of_range`: NaN, or an unchanged
result vector, and no exception. -/
theorem C28_false_input_failure_swallowed [Add K] (I : Iface O In Opt K) (s : Outs O) (n : String) (i : In)
    (o o1 : O) (hn : s n = some o) (hset : I.setInputs o i = (o1, some .outOfRange)) :
    calcOutput I s n i = (s.set n o1, .ok .nan) ∧
    (∀ out, calcOutputVec I s n i out = (s.set n o1, out, .ok ())) ∧
    (∀ wrt p, calcOutputPartial I s n wrt i p = (s.set n o1, .nan, .ok ())) ∧
    (∀ wrt p, calcOutputPartialVec I s n wrt i p = (s.set n o1, p, .ok ())) ∧
    (∀ d wrt out, outputJVP I s n i d wrt out = (s.set n o1, out, .ok ())) ∧
    (∀ b wrt out, outputVJP I s n i b wrt out = (s.set n o1, out, .ok ())) := by
  refine ⟨?_, ?_, ?_, ?_, ?_, ?_⟩ <;> intros <;>
    simp [calcOutput, calcOutputVec, calcOutputPartial, calcOutputPartialVec, outputJVP, outputVJP, vecOp, hn, hset,
      swallow]

/-- A small interface: the object is a counter of evaluations, the value is the input plus the counter; derivatives with
respect to anything but `"state"` are unknown. -/
def toy : Iface Nat Nat Unit Nat where
  make n _ := if n = "lift" ∨ n = "drag" then .ok 0 else .throws .other
  size _ := 1
  setInputs o _ := (o + 1, none)
  setOptions o _ := (o, none)
  calcScalar o i := (o, .ok (i + o))
  calcVec o _ v := (o, v, none)
  partialScalar o _ _ := (o, .ok 0)
  partialVec o _ _ v := (o, v, none)
  jvpScalar o d w := (o, if w = "state" then .ok d.sum else .throws .outOfRange)
  jvpVec o _ _ v := (o, v, none)
  vjpScalar o _ _ := (o, .throws .outOfRange)
  vjpVec o _ _ v := (o, v, none)

example : (runAll toy (fun _ => none) [.create "lift" (), .create "bad" (), .eval "lift" 5, .create "lift" ()] "lift") = some 1 ∧
    (runAll toy (fun _ => none) [.create "lift" (), .create "bad" ()] "bad") = none ∧
    (outputJVP toy (Outs.set (fun _ => none) "lift" 0) "lift" 3 [1, 2] "state" [10]).2 = ([13], .ok ()) ∧
    (outputJVP toy (Outs.set (fun _ => none) "lift" 0) "lift" 3 [1, 2] "mesh" [10]).2 = ([10], .ok ()) := by
  decide

end Verif.Registry
