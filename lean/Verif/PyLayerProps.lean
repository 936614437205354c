import Mathlib.Tactic.Linarith
import Mathlib.Data.Rat.Defs
import Verif.PyLayer
import Verif.Thermal
import Verif.SteadySolveProps

/-! # The Python layer: property theorems (C169–C176) -/

set_option linter.unusedSectionVars false
set_option linter.unusedSimpArgs false

namespace Verif.Py

/-! ### C169: dictionaries of inputs -/

section bindings

open Verif.Inputs

variable {K : Type} [IntCast K]

/-- The documented types of an entry: Python numbers and live one-dimensional contiguous arrays of doubles. -/
def Native (h : Heap K) : Obj K → Prop
  | .float _ => True
  | .int _ => True
  | .array ndim contiguous b => ndim = 1 ∧ contiguous = true ∧ ∃ l, h b = some l
  | _ => False

/-- What C++ must be given for an entry: a number for numbers and arrays of length one; else the array's own memory. -/
def Delivers (h : Heap K) (o : Obj K) (i : Input K) : Prop :=
  match o with
  | .float x => i = .val x
  | .int k => i = .val (k : K)
  | .array _ _ b => ∃ l, h b = some l ∧ ((∃ x, l = [x] ∧ i = .val x) ∨ (l.length ≠ 1 ∧ i = .vec ⟨b, l.length⟩))
  | _ => False

theorem toInput_native (h : Heap K) (o : Obj K) (fresh : ℕ) (ho : Native h o) :
    ∃ i, toInput h o fresh = .ok (h, i) ∧ Delivers h o i := by
  cases o with
  | float x => exact ⟨_, rfl, rfl⟩
  | int k => exact ⟨_, rfl, rfl⟩
  | array nd ct b =>
    obtain ⟨rfl, rfl, l, hl⟩ := ho
    unfold toInput
    simp only [ne_eq, not_true_eq_false, if_false, hl, Bool.true_eq_false]
    match l, hl with
    | [], hl => exact ⟨_, rfl, [], hl, Or.inr ⟨by simp, rfl⟩⟩
    | [x], hl => exact ⟨_, rfl, [x], hl, Or.inl ⟨x, rfl, rfl⟩⟩
    | x :: y :: l, hl => exact ⟨_, rfl, _, hl, Or.inr ⟨by simp, rfl⟩⟩
  | conv l => exact ho.elim
  | zeroDim x => exact ho.elim

/-- **C169** A dictionary of native entries is accepted whatever its size; no memory changes; every entry arrives — numbers by
value, arrays of another length than one as the user's own memory — and nothing else does. -/
theorem C169_native (h : Heap K) : ∀ (d : List (String × Obj K)) (fresh : ℕ), (d.map Prod.fst).Nodup →
    (∀ e ∈ d, Native h e.2) → ∃ ins, toInputs h d fresh = .ok (h, ins) ∧
      (∀ k o, (k, o) ∈ d → ∃ i, ins k = some i ∧ Delivers h o i) ∧ (∀ k, k ∉ d.map Prod.fst → ins k = none) := by
  intro d
  induction d with
  | nil => intro fresh _ _; exact ⟨_, rfl, by simp, fun _ _ => rfl⟩
  | cons e d ih =>
    intro fresh hn hd
    obtain ⟨k, o⟩ := e
    obtain ⟨i, hi, hD⟩ := toInput_native h o fresh (hd (k, o) (by simp))
    rw [List.map_cons, List.nodup_cons] at hn
    obtain ⟨ins, h1, h2, h3⟩ := ih (fresh + 1) hn.2 fun e he => hd e (List.mem_cons_of_mem _ he)
    refine ⟨fun k' => if k' = k then some i else ins k', ?_, ?_, ?_⟩
    · rw [toInputs]; simp only [hi, h1]
    · intro k' o' hm
      rcases List.mem_cons.1 hm with he | hm
      · obtain ⟨rfl, rfl⟩ := Prod.mk.inj he
        exact ⟨i, if_pos rfl, hD⟩
      · obtain ⟨j, hj, hD'⟩ := h2 k' o' hm
        have : k' ≠ k := fun e => hn.1 (List.mem_map.2 ⟨(k', o'), hm, e⟩)
        exact ⟨j, (if_neg this).trans hj, hD'⟩
    · intro k' hk'
      rw [List.map_cons, List.mem_cons, not_or] at hk'
      exact (if_neg hk'.1).trans (h3 k' hk'.2)

/-- **C169** The view is live in both directions: what is written to the array later is what C++ reads, and conversely. -/
theorem C169_alias (h : Heap K) (l : List K) (b fresh : ℕ) (hb : h b = some l) (hl : l.length ≠ 1) (i : ℕ) (x : K)
    (hi : i < l.length) : ∃ v, toInput h (.array 1 true b) fresh = .ok (h, .vec v) ∧ v.size = l.length ∧
      rd (wr h b i x) v.data i = some x ∧ (Obj.array 1 true b).read (wr h v.data i x) = some (l.set i x) := by
  obtain ⟨j, hj, l', hl', hD⟩ := toInput_native h (.array 1 true b) fresh ⟨rfl, rfl, l, hb⟩
  obtain rfl : l = l' := Option.some.inj (hb.symm.trans hl')
  rcases hD with ⟨y, hy, _⟩ | ⟨_, rfl⟩
  · rw [hy] at hl; exact absurd rfl hl
  · refine ⟨_, hj, rfl, ?_, ?_⟩
    · simp [rd, wr, hb, hi]
    · simp [Obj.read, wr, hb]

/-- **C169** Arrays of the wrong dimension or layout and zero-dimensional objects end the call with an exception, wherever they
stand in the dictionary. -/
theorem C169_rejected (bad : Obj K) (hbad : (∃ x, bad = .zeroDim x) ∨ ∃ nd ct b, bad = .array nd ct b ∧ (nd ≠ 1 ∨ ct = false)) :
    ∀ (d : List (String × Obj K)) (h : Heap K) (fresh : ℕ), (∃ k, (k, bad) ∈ d) → toInputs h d fresh = .raised := by
  have h1 : ∀ (h : Heap K) fresh, toInput h bad fresh = .raised := by
    intro h fresh
    rcases hbad with ⟨x, rfl⟩ | ⟨nd, ct, b, rfl, hc⟩
    · rfl
    · unfold toInput
      by_cases hnd : nd ≠ 1
      · exact if_pos hnd
      · have : ct = false := hc.resolve_left hnd
        simp only [if_neg hnd, this, if_true]
  intro d
  induction d with
  | nil => intro h fresh ⟨k, hk⟩; simp at hk
  | cons e d ih =>
    intro h fresh ⟨k, hk⟩
    obtain ⟨k', o⟩ := e
    rw [toInputs]
    rcases List.mem_cons.1 hk with he | hm
    · obtain ⟨rfl, rfl⟩ := Prod.mk.inj he
      rw [h1]
    · cases ho : toInput h o fresh with
      | raised => rfl
      | ok r => simp only [ih r.1 (fresh + 1) ⟨k, hm⟩]

/-- **C169 is false for converted objects**: a list or an array of another type (of a length other than one) arrives as the
address of memory that was released before the solver is called. -/
theorem C169_dangling_false (h : Heap K) (l : List K) (fresh : ℕ) (hl : l.length ≠ 1) : ∃ h' v,
    toInput h (.conv l) fresh = .ok (h', .vec v) ∧ v.size = l.length ∧ h' v.data = none ∧ ∀ i, rd h' v.data i = none := by
  have e : toInput h (.conv l) fresh = .ok (fun c => if c = fresh then none else h c, .vec ⟨fresh, l.length⟩) := by
    unfold toInput
    match l, hl with
    | [], _ => rfl
    | [x], hl => exact absurd rfl hl
    | x :: y :: l, _ => rfl
  exact ⟨_, _, e, rfl, by simp, fun i => by simp [rd]⟩

/-- **C169 is false for fields of one dof**: an array of length one arrives as a number, which the code reading a field rejects. -/
theorem C169_one_dof_field_false (h : Heap K) (b : ℕ) (x : K) (hb : h b = some [x]) (key : String) (v : Inputs.Vec) (deep err : Bool)
    (fresh : ℕ) (junk : ℕ → List K) : ∃ ins, toInputs h [(key, .array 1 true b)] fresh = .ok (h, ins) ∧
      setVectorFromInputs h ins key v deep err fresh junk = .badVariant := by
  refine ⟨fun k' => if k' = key then some (.val x) else none, ?_, ?_⟩
  · simp [toInputs, toInput, hb]
  · simp [setVectorFromInputs, setVectorFromInput]

/-- **C169 is false for numpy scalars**: they are rejected though the Python number of the same value is accepted. -/
theorem C169_numpy_scalar_false (h : Heap K) (key : String) (x : K) (fresh : ℕ) :
    toInputs h [(key, .zeroDim x)] fresh = .raised ∧
    ∃ ins, toInputs h [(key, .float x)] fresh = .ok (h, ins) ∧ ins key = some (.val x) :=
  ⟨rfl, fun k' => if k' = key then some (.val x) else none, rfl, if_pos rfl⟩

/-- Non-vacuity: a dictionary with a float, an int, a field of three dofs and an array of length one. -/
example : ∃ (h : Heap ℚ) (d : List (String × Obj ℚ)), (d.map Prod.fst).Nodup ∧ (∀ e ∈ d, Native h e.2) ∧ d.length = 4 ∧
    h 7 = some [1, 2, 3] :=
  ⟨fun b => if b = 7 then some [1, 2, 3] else if b = 8 then some [4] else none,
    [("a", .float 2), ("b", .int 3), ("state", .array 1 true 7), ("c", .array 1 true 8)], by decide,
    by
      intro e he
      simp only [List.mem_cons, List.not_mem_nil, or_false] at he
      rcases he with rfl | rfl | rfl | rfl
      · trivial
      · trivial
      · exact ⟨rfl, rfl, _, rfl⟩
      · exact ⟨rfl, rfl, _, rfl⟩, rfl, rfl⟩

/-! ### C170: output vectors -/

/-- **C170** A live contiguous array of doubles receives the result; no other memory changes. -/
theorem C170_result_arrives (h : Heap K) (l : List K) (b fresh : ℕ) (hb : h b = some l) (f : List K → List K) :
    ∃ h', callOut h (.array 1 true b) f fresh = .ok h' ∧ (Obj.array 1 true b).read h' = some (f l) ∧ ∀ c, c ≠ b → h' c = h c :=
  ⟨fun c => if c = b then some (f l) else h c, by simp [callOut, hb], by simp [Obj.read], fun c hc => by simp [hc]⟩

/-- **C170** Objects that are neither one-dimensional arrays nor convertible to one are rejected, before anything is computed. -/
theorem C170_rejected (h : Heap K) (o : Obj K) (f : List K → List K) (fresh : ℕ)
    (ho : (∃ x, o = .float x) ∨ (∃ k, o = .int k) ∨ (∃ x, o = .zeroDim x) ∨
      ∃ nd ct b, o = .array nd ct b ∧ (nd ≠ 1 ∨ ct = false)) : callOut h o f fresh = .raised := by
  rcases ho with ⟨x, rfl⟩ | ⟨k, rfl⟩ | ⟨x, rfl⟩ | ⟨nd, ct, b, rfl, hc⟩
  · rfl
  · rfl
  · rfl
  · unfold callOut
    by_cases hnd : nd ≠ 1
    · exact if_pos hnd
    · have : ct = false := hc.resolve_left hnd
      simp only [if_neg hnd, this, if_true]

/-- **C170 is false for converted objects**: the call succeeds, and the user's object keeps its contents whatever was computed. -/
theorem C170_lost_false (h : Heap K) (l : List K) (fresh : ℕ) (f : List K → List K) :
    ∃ h', callOut h (.conv l) f fresh = .ok h' ∧ (Obj.conv l).read h' = some l ∧ ∀ c, c ≠ fresh → h' c = h c :=
  ⟨_, rfl, rfl, fun _ hc => if_neg hc⟩

/-- Non-vacuity: solving into an array of three entries. -/
example : ∃ h : Heap ℚ, h 7 = some [1, 2, 3] ∧ ∃ h', callOut h (.array 1 true 7) (fun l => l.map (2 * ·)) 9 = .ok h' ∧
    h' 7 = some [2, 4, 6] :=
  ⟨fun b => if b = 7 then some [1, 2, 3] else none, rfl, _, rfl, by norm_num⟩

end bindings

open Verif.NLForm Verif.Steady Matrix

variable {n : ℕ} {P : Type}

/-! ### C171: products through the bindings -/

/-- **C171** With more than one dof the products with respect to the state are those of the form: they add `L w` and `Lᵀ r`
for one and the same `L`, or throw together. -/
theorem C171_state_partial (f : Form n P) (hn : n ≠ 1) (w r rd wb : Vec n) :
    (∀ y, bindJvp f .state w rd = .ok y ↔ ∃ g, f.jvpState w rd = some (g, y)) ∧
    (∀ y, bindVjpState f r wb = .ok y ↔ ∃ g, f.vjpState r wb = some (g, y)) := by
  constructor
  · intro y
    unfold bindJvp
    rw [if_neg hn]
    cases h : f.jvpState w rd with
    | none => simp
    | some q =>
      obtain ⟨g, z⟩ := q
      constructor
      · intro e; injection e with e; exact ⟨g, by rw [← e]⟩
      · rintro ⟨g', e⟩; injection e with e; injection e with _ e; simp [e]
  · intro y
    unfold bindVjpState
    rw [if_neg hn]
    cases h : f.vjpState r wb with
    | none => simp
    | some q =>
      obtain ⟨g, z⟩ := q
      constructor
      · intro e; injection e with e; exact ⟨g, by rw [← e]⟩
      · rintro ⟨g', e⟩; injection e with e; injection e with _ e; simp [e]

/-- **C171 is false for one dof**: the products with respect to the state add nothing, without an error, though the form's own
products add `J w`. -/
theorem C171_one_dof_false (f : Form 1 P) (w r rd wb : Vec 1) :
    bindJvp f .state w rd = .ok rd ∧ bindVjpState f r wb = .ok wb := ⟨rfl, rfl⟩

/-- … concretely `u ↦ 3u`: the derivative in direction 1 is 3, the product stays 0. -/
theorem C171_one_dof_witness_false : ∃ (F : Phys 1 Unit) (f : Form 1 Unit), IsDeriv (F.R ()) 0 (fun v => F.J () 0 *ᵥ v) ∧
    f = (fresh ∅ none ()).getJacobian F 0 ∧ (∃ g y, f.jvpState 1 0 = some (g, y) ∧ y 0 = 3) ∧ bindJvp f .state 1 0 = .ok 0 := by
  refine ⟨⟨fun _ u _ => 3 * u 0, fun _ _ _ _ => 3⟩, _, ?_, rfl, ?_, rfl⟩
  · intro v
    rw [hasDerivAt_pi]
    intro i
    have h : HasDerivAt (fun t : ℝ => t * (3 * v 0)) (1 * (3 * v 0)) 0 := (hasDerivAt_id' (0 : ℝ)).mul_const (3 * v 0)
    refine (h.congr_deriv ?_).congr_of_eventuallyEq (Filter.Eventually.of_forall fun t => ?_)
    · simp [Matrix.mulVec, dotProduct]
    · simp; ring
  · refine ⟨_, _, rfl, ?_⟩
    simp [Matrix.mulVec, dotProduct, zeroEss, elim, elimE, fresh, Form.getJacobian]

/-- **C171 is false for scalars**: with more than one dof, the forward derivative with respect to a registered scalar is
silently zero; with respect to a field it throws. -/
theorem C171_scalar_forward_false (f : Form n P) (hn : n ≠ 1) (w rd : Vec n) :
    bindJvp f .scalar w rd = .ok rd ∧ bindJvp f .field w rd = .raised ∧ bindJvp f .unknown w rd = .ok rd := by
  unfold bindJvp
  rw [if_neg hn, if_neg hn, if_neg hn]
  exact ⟨rfl, rfl, rfl⟩

/-! ### C172: histories of a state component -/

/-- The calls OpenMDAO makes on the component. -/
inductive CCall (n : ℕ) (P : Type)
  | apply (p : P) (u : Vec n)
  | solve (inverted : Bool) (p : P) (u0 : Vec n)
  | linearize (p : P) (u : Vec n)
  | adjoint (dOut dRes : Vec n)

/-- One call; an exception is caught by the caller. -/
noncomputable def cstep (F : Phys n P) (N : Newton n) (adjLin : Mat n → Vec n → Vec n → Vec n) (o : TimeLoop.LogOpts) (c : Comp n P) :
    CCall n P → Comp n P
  | .apply p u => (applyNonlinear F c p u).1
  | .solve inv p u0 => (solveNonlinear F N o inv c p u0).1
  | .linearize p u => linearize F c p u
  | .adjoint dOut dRes => match solveLinear adjLin c dOut dRes with
    | some (c', _) => c'
    | none => if c.linearized then { c with solver := { c.solver with form := c.solver.form.setInputs c.inputs } } else c

/-- A history of calls. -/
noncomputable def crun (F : Phys n P) (N : Newton n) (adjLin : Mat n → Vec n → Vec n → Vec n) (o : TimeLoop.LogOpts) (c : Comp n P)
    (h : List (CCall n P)) : Comp n P := h.foldl (cstep F N adjLin o) c

theorem linearize_keep (F : Phys n P) (f : Form n P) (p : P) (u : Vec n) :
    (f.linearize F p u).ess = f.ess ∧ (f.linearize F p u).bc = f.bc ∧ (f.linearize F p u).p = p := by
  unfold Form.linearize
  simp only [Form.setInputs, Form.getJacobian]
  cases hj : f.jac <;> cases hT : f.jacT <;> simp [hj, hT]

theorem setUp_keep (f : Form n P) (a b : Vec n) {g : Form n P} {T : Mat n} {x y : Vec n}
    (h : f.setUpAdjoint a b = some (g, T, x, y)) : g.ess = f.ess ∧ g.bc = f.bc ∧ g.p = f.p := by
  have hT : ∀ g T, f.getJacobianTranspose = some (g, T) → g.ess = f.ess ∧ g.bc = f.bc ∧ g.p = f.p := by
    intro g T h
    unfold Form.getJacobianTranspose at h
    cases hT : f.jacT with
    | some T' =>
      simp only [hT, Option.some.injEq, Prod.mk.injEq] at h
      rw [← h.1]; exact ⟨rfl, rfl, rfl⟩
    | none =>
      cases hj : f.jac with
      | none => simp [hT, hj] at h
      | some A =>
        simp only [hT, hj, Option.some.injEq, Prod.mk.injEq] at h
        rw [← h.1]; exact ⟨rfl, rfl, rfl⟩
  unfold Form.setUpAdjoint at h
  cases hq : f.getJacobianTranspose with
  | none => simp [hq] at h
  | some q =>
    obtain ⟨g', T'⟩ := q
    have hk := hT g' T' hq
    simp only [hq] at h
    by_cases he : g'.ess = ∅
    · rw [if_pos he] at h
      simp only [Option.some.injEq, Prod.mk.injEq] at h
      rw [← h.1]; exact hk
    · rw [if_neg he] at h
      simp only [Option.some.injEq, Prod.mk.injEq] at h
      rw [← h.1]; exact hk

theorem adjoint_keep (adjLin : Mat n → Vec n → Vec n → Vec n) (s s' : Solver n P) (p : P) (a b ψ : Vec n)
    (h : solveForAdjoint adjLin s p a b = some (s', ψ)) : s'.form.ess = s.form.ess ∧ s'.form.bc = s.form.bc ∧ s'.form.p = p := by
  unfold solveForAdjoint at h
  cases hq : (s.form.setInputs p).setUpAdjoint a b with
  | none => simp [hq] at h
  | some q =>
    obtain ⟨g, T, x, y⟩ := q
    have hk := setUp_keep (s.form.setInputs p) a b hq
    simp only [hq, Option.some.injEq, Prod.mk.injEq] at h
    rw [← h.1]
    exact hk

theorem solveLinear_keep (adjLin : Mat n → Vec n → Vec n → Vec n) (c c' : Comp n P) (dOut dRes ψ : Vec n)
    (h : solveLinear adjLin c dOut dRes = some (c', ψ)) : c'.solver.form.ess = c.solver.form.ess ∧
      c'.solver.form.bc = c.solver.form.bc ∧ c'.inputs = c.inputs ∧ c'.state = c.state := by
  unfold solveLinear at h
  split_ifs at h with h1 h2
  · cases hq : solveForAdjoint adjLin c.solver c.inputs dOut dRes with
    | none => simp [hq] at h
    | some q =>
      obtain ⟨s, ψ'⟩ := q
      have hk := adjoint_keep _ _ _ _ _ _ _ hq
      simp only [hq, Option.some.injEq, Prod.mk.injEq] at h
      rw [← h.1]
      exact ⟨hk.1, hk.2.1, rfl, rfl⟩
  · simp only [Option.some.injEq, Prod.mk.injEq] at h
    rw [← h.1]
    exact ⟨rfl, rfl, rfl, rfl⟩

theorem cstep_keep (F : Phys n P) (N : Newton n) (adjLin : Mat n → Vec n → Vec n → Vec n) (o : TimeLoop.LogOpts) (c : Comp n P)
    (x : CCall n P) : (cstep F N adjLin o c x).solver.form.ess = c.solver.form.ess ∧
      (cstep F N adjLin o c x).solver.form.bc = c.solver.form.bc := by
  cases x with
  | apply p u =>
    have k := evaluate_keep F (c.solver.form.setInputs p) u
    exact ⟨k.1, k.2.1⟩
  | solve inv p u0 =>
    cases inv with
    | true => exact ⟨rfl, rfl⟩
    | false =>
      have k := newton_facts F N (c.solver.form.setInputs p) u0
      exact ⟨k.1, k.2.1⟩
  | linearize p u =>
    have k := linearize_keep F c.solver.form p u
    exact ⟨k.1, k.2.1⟩
  | adjoint a b =>
    unfold cstep
    simp only
    split
    · next c' ψ h =>
      have k := solveLinear_keep adjLin c c' a b ψ h
      exact ⟨k.1, k.2.1⟩
    · split_ifs <;> exact ⟨rfl, rfl⟩

theorem crun_keep (F : Phys n P) (N : Newton n) (adjLin : Mat n → Vec n → Vec n → Vec n) (o : TimeLoop.LogOpts) :
    ∀ (h : List (CCall n P)) (c : Comp n P), (crun F N adjLin o c h).solver.form.ess = c.solver.form.ess ∧
      (crun F N adjLin o c h).solver.form.bc = c.solver.form.bc := by
  intro h
  induction h with
  | nil => intro c; exact ⟨rfl, rfl⟩
  | cons x h ih =>
    intro c
    have k := cstep_keep F N adjLin o c x
    have i := ih (cstep F N adjLin o c x)
    exact ⟨i.1.trans k.1, i.2.trans k.2⟩

/-- A Newton run sees of the object only the essential dofs, the boundary values and the parameters. -/
theorem loop_congr (F : Phys n P) (N : Newton n) (goal : ℝ) : ∀ (left it : ℕ) (f g : Form n P) (u r : Vec n),
    f.ess = g.ess → f.bc = g.bc → f.p = g.p → (loop F N goal left it f u r).u = (loop F N goal left it g u r).u := by
  intro left
  induction left with
  | zero =>
    intro it f g u r _ _ _
    rw [loop_zero, loop_zero]
    split_ifs <;> rfl
  | succ left ih =>
    intro it f g u r h1 h2 h3
    rw [loop_succ, loop_succ]
    by_cases h : norm2 r ≤ goal
    · rw [if_pos h, if_pos h]
    · rw [if_neg h, if_neg h]
      have hj : (f.getJacobian F u).jac = (g.getJacobian F u).jac := by
        show some (elim f.ess (F.J f.p u)) = some (elim g.ess (F.J g.p u)); rw [h1, h3]
      simp only [hj]
      split_ifs
      · rfl
      · obtain ⟨u', hu'⟩ : ∃ u' : Vec n, u' = fun i => u i - N.scale u (N.lin ((g.getJacobian F u).jac.getD 0) r) *
            (N.lin ((g.getJacobian F u).jac.getD 0) r) i := ⟨_, rfl⟩
        rw [← hu']
        obtain ⟨a1, a2, a3, _⟩ := evaluate_keep F (f.getJacobian F u) u'
        obtain ⟨b1, b2, b3, _⟩ := evaluate_keep F (g.getJacobian F u) u'
        have e1 : ((f.getJacobian F u).evaluate F u').1.ess = ((g.getJacobian F u).evaluate F u').1.ess := by
          rw [a1, b1]; exact h1
        have e2 : ((f.getJacobian F u).evaluate F u').1.bc = ((g.getJacobian F u).evaluate F u').1.bc := by
          rw [a2, b2]; exact h2
        have e3 : ((f.getJacobian F u).evaluate F u').1.p = ((g.getJacobian F u).evaluate F u').1.p := by
          rw [a3, b3]; exact h3
        have e4 : ((f.getJacobian F u).evaluate F u').2 = ((g.getJacobian F u).evaluate F u').2 := by
          rw [evaluate_eq, evaluate_eq]
          show NLForm.residual F f.ess f.bc f.p u' = NLForm.residual F g.ess g.bc g.p u'
          rw [h1, h2, h3]
        rw [e4]
        exact ih _ _ _ _ _ e1 e2 e3

/-- **C172** `apply_nonlinear` returns the residual of the inputs and outputs it is given, whatever was called before. -/
theorem C172_residual (F : Phys n P) (N : Newton n) (adjLin : Mat n → Vec n → Vec n → Vec n) (o : TimeLoop.LogOpts) (c : Comp n P)
    (h : List (CCall n P)) (p : P) (u : Vec n) : (applyNonlinear F (crun F N adjLin o c h) p u).2 =
      NLForm.residual F c.solver.form.ess c.solver.form.bc p u := by
  have k := crun_keep F N adjLin o h c
  unfold applyNonlinear calcResidual
  simp only
  rw [evaluate_eq]
  show NLForm.residual F (crun F N adjLin o c h).solver.form.ess (crun F N adjLin o c h).solver.form.bc p u = _
  rw [k.1, k.2]

/-- **C172** The state `solve_nonlinear` returns depends on the inputs and the initial guess only, not on earlier calls. -/
theorem C172_solve (F : Phys n P) (N : Newton n) (adjLin : Mat n → Vec n → Vec n → Vec n) (o : TimeLoop.LogOpts) (c : Comp n P)
    (h h' : List (CCall n P)) (inv : Bool) (p : P) (u0 : Vec n) :
    (solveNonlinear F N o inv (crun F N adjLin o c h) p u0).2 = (solveNonlinear F N o inv (crun F N adjLin o c h') p u0).2 := by
  have k := crun_keep F N adjLin o h c
  have k' := crun_keep F N adjLin o h' c
  cases inv with
  | true => rfl
  | false =>
    show some (newton F N ((crun F N adjLin o c h).solver.form.setInputs p) u0).u =
      some (newton F N ((crun F N adjLin o c h').solver.form.setInputs p) u0).u
    congr 1
    obtain ⟨a1, a2, a3, _⟩ := evaluate_keep F ((crun F N adjLin o c h).solver.form.setInputs p) u0
    obtain ⟨b1, b2, b3, _⟩ := evaluate_keep F ((crun F N adjLin o c h').solver.form.setInputs p) u0
    have e4 : (((crun F N adjLin o c h).solver.form.setInputs p).evaluate F u0).2 =
        (((crun F N adjLin o c h').solver.form.setInputs p).evaluate F u0).2 := by
      rw [evaluate_eq, evaluate_eq]
      show NLForm.residual F (crun F N adjLin o c h).solver.form.ess (crun F N adjLin o c h).solver.form.bc p u0 =
        NLForm.residual F (crun F N adjLin o c h').solver.form.ess (crun F N adjLin o c h').solver.form.bc p u0
      rw [k.1, k.2, k'.1, k'.2]
    unfold newton
    simp only
    rw [e4]
    refine loop_congr _ _ _ _ _ _ _ _ _ ?_ ?_ ?_
    · rw [a1, b1]; exact k.1.trans k'.1.symm
    · rw [a2, b2]; exact k.2.trans k'.2.symm
    · rw [a3, b3]; rfl

/-- **C172** A solve that meets an inverted mesh is an exception and leaves the outputs as they were, after any history. -/
theorem C172_inverted (F : Phys n P) (N : Newton n) (o : TimeLoop.LogOpts) (c : Comp n P) (p : P) (u0 : Vec n) :
    (solveNonlinear F N o true c p u0).2 = none ∧ (solveNonlinear F N o true c p u0).1.state = u0 := ⟨rfl, rfl⟩

/-! ### C173: `solve_linear` -/

/-- **C173** `linearize` on a solver that has not assembled a Jacobian, then a non-zero seed: `d_residuals` becomes the adjoint
of the linearised problem, whatever it held before. -/
theorem C173_adjoint_partial (F : Phys n P) (adjLin : Mat n → Vec n → Vec n → Vec n) (hlin : Exact adjLin) (c : Comp n P)
    (hj : c.solver.form.jac = none) (hjT : c.solver.form.jacT = none) (p : P) (u : Vec n)
    (hreg : Regular c.solver.form.ess (F.J p u)) (dOut dRes : Vec n) (hd : dOut ≠ 0) :
    ∃ c' ψ, solveLinear adjLin (linearize F c p u) dOut dRes = some (c', ψ) ∧
      IsAdjoint c.solver.form.ess (F.J p u) dOut ψ ∧ c'.solver.form.p = p := by
  have hform : (c.solver.form.linearize F p u).jac = some (elim c.solver.form.ess (F.J p u)) ∧
      (c.solver.form.linearize F p u).jacT = some (elim c.solver.form.ess (F.J p u))ᵀ ∧
      (c.solver.form.linearize F p u).ess = c.solver.form.ess := by
    simp [Form.linearize, Form.setInputs, Form.getJacobian, hj, hjT]
  have hs : (linearize F c p u).solver.form = c.solver.form.linearize F p u := rfl
  have hnz : norm2 dOut ≠ 0 := by
    intro h0
    apply hd
    unfold norm2 at h0
    rw [Real.sqrt_eq_zero (Finset.sum_nonneg fun i _ => mul_self_nonneg _)] at h0
    funext i
    have := (Finset.sum_eq_zero_iff_of_nonneg (fun i _ => mul_self_nonneg (dOut i))).1 h0 i (Finset.mem_univ i)
    exact mul_self_eq_zero.1 this
  obtain ⟨s2, ψ, h1, h2, _⟩ := adjoint_of_stored adjLin hlin (linearize F c p u).solver (linearize F c p u).inputs (F.J p u)
    (by rw [hs, hform.1, hform.2.2]) (by rw [hs, hform.2.1, hform.2.2]; exact Or.inr rfl)
    (by rw [hs, hform.2.2]; exact hreg) dOut dRes
  have hk := adjoint_keep _ _ _ _ _ _ _ h1
  rw [hs, hform.2.2] at h2
  refine ⟨{ linearize F c p u with solver := s2 }, ψ, ?_, h2, hk.2.2⟩
  unfold solveLinear
  rw [if_pos hnz, if_pos (show (linearize F c p u).linearized = true from rfl)]
  simp only [h1]

/-- The adjoint for a zero seed is zero. -/
theorem adjoint_zero (ess : Finset (Fin n)) (J : Mat n) (hreg : Regular ess Jᵀ) (ψ : Vec n) (h : IsAdjoint ess J 0 ψ) : ψ = 0 :=
  hreg ψ h.1 fun i hi => h.2 i hi

/-- **C173 is false for a zero seed**: `d_residuals` keeps whatever it held, in every state of the component; the adjoint is 0. -/
theorem C173_zero_seed_false (adjLin : Mat n → Vec n → Vec n → Vec n) (c : Comp n P) (J : Mat n)
    (hreg : Regular c.solver.form.ess Jᵀ) (dRes : Vec n) (hr : dRes ≠ 0) :
    solveLinear adjLin c 0 dRes = some (c, dRes) ∧ ¬ IsAdjoint c.solver.form.ess J 0 dRes := by
  refine ⟨?_, fun h => hr (adjoint_zero _ _ hreg _ h)⟩
  unfold solveLinear
  have : norm2 (0 : Vec n) = 0 := by simp [norm2]
  rw [if_neg (not_not_intro this)]

/-- **C173 is false in forward mode**: an exception, or with `check_partials` `d_outputs` unchanged, whatever the linear system. -/
theorem C173_forward_false (dOut : Vec n) : solveLinearFwd false dOut = none ∧ solveLinearFwd true dOut = some dOut := ⟨rfl, rfl⟩

theorem norm2_ne (d : Vec n) (hd : d ≠ 0) : norm2 d ≠ 0 := by
  intro h0
  apply hd
  unfold norm2 at h0
  rw [Real.sqrt_eq_zero (Finset.sum_nonneg fun i _ => mul_self_nonneg _)] at h0
  funext i
  exact mul_self_eq_zero.1 ((Finset.sum_eq_zero_iff_of_nonneg (fun i _ => mul_self_nonneg (d i))).1 h0 i (Finset.mem_univ i))

/-- **C173 is false if the component is evaluated between `linearize` and `solve_linear`**: the cached inputs are references to
the buffers, so the adjoint solve, while it uses the Jacobian of the old design, puts the *new* inputs in force: the products that
follow are those of the new design. -/
theorem C173_cached_inputs_false (F : Phys n P) (adjLin : Mat n → Vec n → Vec n → Vec n) (hlin : Exact adjLin) (c : Comp n P)
    (hj : c.solver.form.jac = none) (hjT : c.solver.form.jacT = none) (p q : P) (u v : Vec n)
    (hreg : Regular c.solver.form.ess (F.J p u)) (dOut dRes : Vec n) (hd : dOut ≠ 0) :
    ∃ c' ψ, solveLinear adjLin (applyNonlinear F (linearize F c p u) q v).1 dOut dRes = some (c', ψ) ∧
      IsAdjoint c.solver.form.ess (F.J p u) dOut ψ ∧ c'.solver.form.p = q := by
  obtain ⟨c1, hc1⟩ : ∃ c1, c1 = (applyNonlinear F (linearize F c p u) q v).1 := ⟨_, rfl⟩
  have hform : (c.solver.form.linearize F p u).jac = some (elim c.solver.form.ess (F.J p u)) ∧
      (c.solver.form.linearize F p u).jacT = some (elim c.solver.form.ess (F.J p u))ᵀ ∧
      (c.solver.form.linearize F p u).ess = c.solver.form.ess := by
    simp [Form.linearize, Form.setInputs, Form.getJacobian, hj, hjT]
  have hk := evaluate_keep F ((c.solver.form.linearize F p u).setInputs q) v
  have f1 : c1.solver.form.ess = c.solver.form.ess := by rw [hc1]; exact hk.1.trans hform.2.2
  have f2 : c1.solver.form.jac = some (elim c.solver.form.ess (F.J p u)) := by rw [hc1]; exact hk.2.2.2.1.trans hform.1
  have f3 : c1.solver.form.jacT = some (elim c.solver.form.ess (F.J p u))ᵀ := by
    rw [hc1]; exact hk.2.2.2.2.2.trans hform.2.1
  have f4 : c1.inputs = q := by rw [hc1]; rfl
  have f5 : c1.linearized = true := by rw [hc1]; rfl
  rw [← hc1]
  obtain ⟨s2, ψ, h1, h2, _⟩ := adjoint_of_stored adjLin hlin c1.solver c1.inputs (F.J p u)
    (by rw [f2, f1]) (by rw [f3, f1]; exact Or.inr rfl) (by rw [f1]; exact hreg) dOut dRes
  have hk2 := adjoint_keep _ _ _ _ _ _ _ h1
  rw [f1] at h2
  refine ⟨{ c1 with solver := s2 }, ψ, ?_, h2, hk2.2.2.trans f4⟩
  unfold solveLinear
  rw [if_pos (norm2_ne dOut hd), if_pos f5]
  simp only [h1]

/-- Non-vacuity: the two-dof chain of `SteadySolveProps`, with boundary values on dof 0. -/
example : ∃ c : Comp 2 (Fin 1 → ℝ), c.solver.form.jac = none ∧ c.solver.form.jacT = none ∧ c.solver.form.ess = {0} ∧
    (∃ v, Regular c.solver.form.ess (chain.J 0 v)) ∧ (![1, 2] : Vec 2) ≠ 0 :=
  ⟨⟨⟨NLForm.fresh {0} (some fun _ => 3) 0, []⟩, 0, 0, false⟩, rfl, rfl, rfl, ⟨0, chain_regular 0⟩,
    fun h => by have := congrFun h 0; simp at this⟩

/-! ### C174: `apply_linear` -/

/-- Both products of an input are implemented and add `A d`, `Aᵀ r` for one and the same matrix `A`. -/
def Adjoint (q : Prod1 n) : Prop := ∃ A : Matrix (Fin n) (Fin q.m) ℝ,
  (∀ d r, q.jvp d r = some (r + A *ᵥ d)) ∧ ∀ b w, q.vjp b w = some (w + Aᵀ *ᵥ b)

/-- Sum of seeds. -/
def addS : (qs : List (Prod1 n)) → Seeds qs → Seeds qs → Seeds qs
  | [], _, _ => ()
  | _ :: qs, a, b => (a.1 + b.1, addS qs a.2 b.2)

/-- Inner product of seeds. -/
def dotS : (qs : List (Prod1 n)) → Seeds qs → Seeds qs → ℝ
  | [], _, _ => 0
  | _ :: qs, a, b => a.1 ⬝ᵥ b.1 + dotS qs a.2 b.2

theorem nonzero_false {m : ℕ} (v : Fin m → ℝ) (h : nonzero v = false) : v = 0 := by
  unfold nonzero at h
  rw [decide_eq_false_iff_not, not_not, Real.sqrt_eq_zero (Finset.sum_nonneg fun i _ => mul_self_nonneg _)] at h
  funext i
  exact mul_self_eq_zero.1 ((Finset.sum_eq_zero_iff_of_nonneg (fun i _ => mul_self_nonneg (v i))).1 h i (Finset.mem_univ i))

theorem nonzero_true {m : ℕ} (v : Fin m → ℝ) (h : v ≠ 0) : nonzero v = true := by
  cases h' : nonzero v with
  | true => rfl
  | false => exact absurd (nonzero_false v h') h

theorem addS_zero (qs : List (Prod1 n)) : ∃ z : Seeds qs, (∀ s, addS qs s z = s) ∧ ∀ d, dotS qs z d = 0 := by
  induction qs with
  | nil => exact ⟨(), fun _ => rfl, fun _ => rfl⟩
  | cons q qs ih =>
    obtain ⟨z, h1, h2⟩ := ih
    refine ⟨(0, z), fun s => ?_, fun d => ?_⟩
    · show (s.1 + 0, addS qs s.2 z) = s
      rw [h1, add_zero]; rfl
    · show (0 : Fin q.m → ℝ) ⬝ᵥ d.1 + dotS qs z d.2 = 0
      rw [h2]; simp

theorem fwd_eq (check : Bool) : ∀ (qs : List (Prod1 n)), (∀ q ∈ qs, Adjoint q) → ∀ bar : Vec n, ∃ (y : Seeds qs → Vec n) (t : Seeds qs),
    (∀ d r, applyFwd check qs d r = some (r + y d)) ∧ (∀ s, applyRevLoop check bar qs s = some (addS qs s t)) ∧
    (∀ d, bar ⬝ᵥ y d = dotS qs t d) := by
  intro qs
  induction qs with
  | nil =>
    intro _ bar
    exact ⟨fun _ => 0, (), fun d r => by simp [applyFwd], fun s => rfl, fun d => by simp [dotS]⟩
  | cons q qs ih =>
    intro hq bar
    obtain ⟨A, hA1, hA2⟩ := hq q (by simp)
    obtain ⟨y, t, h1, h2, h3⟩ := ih (fun q' h' => hq q' (List.mem_cons_of_mem _ h')) bar
    refine ⟨fun d => A *ᵥ d.1 + y d.2, (Aᵀ *ᵥ bar, t), fun d r => ?_, fun s => ?_, fun d => ?_⟩
    · rw [applyFwd]
      by_cases hz : nonzero d.1 = true
      · rw [if_pos hz, hA1]
        simp only [h1]
        rw [add_assoc]
      · have : d.1 = 0 := nonzero_false _ (by simpa using hz)
        rw [if_neg hz, h1]
        show some (r + y d.2) = some (r + (A *ᵥ d.1 + y d.2))
        rw [this]
        simp
    · rw [applyRevLoop]
      simp only [hA2, h2, Option.map_some]
      rfl
    · show bar ⬝ᵥ (A *ᵥ d.1 + y d.2) = (Aᵀ *ᵥ bar) ⬝ᵥ d.1 + dotS qs t d.2
      rw [dotProduct_add, h3, Matrix.mulVec_transpose, Matrix.dotProduct_mulVec]

/-- **C174** If every product is implemented and adds, then — in spite of the shortcuts for zero seeds — the forward mode adds
`y(d)` to `d_residuals`, the reverse mode adds `t` to the derivatives of state and inputs, and `⟨bar, y(d)⟩ = ⟨t, d⟩`: the two
modes are adjoint, for any number of inputs of any sizes. -/
theorem C174_adjoint_partial (check : Bool) (qs : List (Prod1 n)) (hq : ∀ q ∈ qs, Adjoint q) (bar : Vec n) :
    ∃ (y : Seeds qs → Vec n) (t : Seeds qs), (∀ d r, applyFwd check qs d r = some (r + y d)) ∧
      (∀ s, applyRev check bar qs s = some (addS qs s t)) ∧ ∀ d, bar ⬝ᵥ y d = dotS qs t d := by
  obtain ⟨y, t, h1, h2, h3⟩ := fwd_eq check qs hq bar
  by_cases hz : nonzero bar = true
  · exact ⟨y, t, h1, fun s => (if_pos hz).trans (h2 s), h3⟩
  · have h0 : bar = 0 := nonzero_false _ (by simpa using hz)
    obtain ⟨z, hz1, hz2⟩ := addS_zero qs
    refine ⟨y, z, h1, fun s => ?_, fun d => ?_⟩
    · rw [hz1]; exact if_neg hz
    · rw [hz2, h0]; simp

/-- The products with respect to "thermal_load", by `thermal_residual.cpp` (`Thermal.lean`). -/
noncomputable def loadProd (R : Thermal.Res) : Prod1 n where
  m := n
  jvp w r := some fun i => (R.jvpLoad (List.ofFn w) (List.ofFn r)).getD i 0
  vjp b w := some fun i => (R.vjpLoad (List.ofFn b) (List.ofFn w)).getD i 0

/-- The products with respect to the state, for a Jacobian `J`. -/
noncomputable def stateProd (J : Mat n) : Prod1 n := ⟨n, fun d r => some (r + J *ᵥ d), fun b w => some (w + Jᵀ *ᵥ b)⟩

theorem loadProd_jvp (R : Thermal.Res) (w : Vec n) (r : Vec n) : (loadProd (n := n) R).jvp w r = some (fun i => -w i) := by
  simp only [loadProd, Option.some.injEq, Thermal.Res.jvpLoad]
  funext i
  rw [List.getD_eq_getElem?_getD, List.getElem?_eq_getElem (by simp)]
  simp

/-- **C174 is false for the thermal solver**: the product with respect to the load overwrites the accumulator, so in forward mode
the contribution of the state is lost, for every Jacobian and all directions. -/
theorem C174_thermal_load_false (check : Bool) (R : Thermal.Res) (J : Mat n) (d w : Vec n) (hw : w ≠ 0) (r : Vec n) :
    applyFwd check [stateProd J, loadProd R] (d, w, ()) r = some (fun i => -w i) := by
  have hw' : nonzero w = true := nonzero_true w hw
  have h2 : ∀ r : Vec n, applyFwd check [loadProd R] (w, ()) r = some (fun i => -w i) := by
    intro r
    refine (if_pos hw').trans ?_
    rw [loadProd_jvp]
    rfl
  by_cases hd : nonzero d = true
  · exact (if_pos hd).trans (h2 _)
  · exact (if_neg hd).trans (h2 _)

/-- **C174 is false with `check_partials`**: an input whose product is not implemented ends the loop, and the contributions of
the inputs after it are missing although theirs are implemented. -/
theorem C174_swallowed_false (q : Prod1 n) (qs : List (Prod1 n)) (hq : ∀ d r, q.jvp d r = none) (d : Seeds (q :: qs)) (hd : d.1 ≠ 0) (r : Vec n) :
    applyFwd true (q :: qs) d r = some r ∧ applyFwd false (q :: qs) d r = none := by
  have : nonzero d.1 = true := nonzero_true _ hd
  constructor <;> rw [applyFwd] <;> simp [this, hq]

/-- Non-vacuity: a state of two dofs and a field of three. -/
example : ∃ qs : List (Prod1 2), (∀ q ∈ qs, Adjoint q) ∧ qs.length = 2 :=
  ⟨[stateProd !![1, 2; 3, 4], ⟨3, fun d r => some (r + !![1, 0, 2; 0, 1, 5] *ᵥ d), fun b w => some (w + !![1, 0, 2; 0, 1, 5]ᵀ *ᵥ b)⟩], by
    intro q hq
    simp only [List.mem_cons, List.not_mem_nil, or_false] at hq
    rcases hq with rfl | rfl
    · exact ⟨_, fun _ _ => rfl, fun _ _ => rfl⟩
    · exact ⟨_, fun _ _ => rfl, fun _ _ => rfl⟩, rfl⟩

/-! ### C175: functionals on several ranks -/

variable {R : ℕ}

/-- The directional derivative: distributed parts add up over the ranks; a number is one number (`d` is the same everywhere). -/
noncomputable def truth : FIn R → FDir R → ℝ
  | .dist g, .dist d => ∑ q, dotL (g q) (d q)
  | .scal s, .scal d => if h : 0 < R then s * d ⟨0, h⟩ else 0
  | _, _ => 0

/-- Distributed input. -/
def IsDist : FIn R → Prop
  | .dist _ => True
  | .scal _ => False

theorem allreduce_eq (v : Fin R → ℝ) (p : Fin R) : allreduce v p = ∑ q, v q := by
  unfold allreduce
  split_ifs with h
  · rfl
  · have hR : R = 1 := by have := p.isLt; omega
    subst hR
    rw [Fin.sum_univ_one]
    congr 1
    exact Subsingleton.elim _ _

/-- **C175** The forward product of a functional whose inputs are distributed is the directional derivative, on every rank and for
any number of ranks and inputs. -/
theorem C175_forward_partial : ∀ (l : List (FIn R × FDir R)), (∀ e ∈ l, IsDist e.1) → ∀ (out : Fin R → ℝ) (p : Fin R),
    funFwd l out p = out p + (l.map fun e => truth e.1 e.2).sum := by
  intro l
  induction l with
  | nil => intro _ out p; simp [funFwd]
  | cons e l ih =>
    intro hl out p
    obtain ⟨i, d⟩ := e
    rw [funFwd, ih (fun e he => hl e (List.mem_cons_of_mem _ he)), allreduce_eq, List.map_cons, List.sum_cons]
    have : ∑ q, localJvp q i d = truth i d := by
      cases i with
      | scal s => exact (hl (FIn.scal s, d) (by simp)).elim
      | dist g => cases d with
        | dist d => rfl
        | scal d => simp [localJvp, truth]
    rw [this, add_assoc]

/-- **C175** On one rank the same holds for all inputs, numbers included. -/
theorem C175_forward_one_rank (l : List (FIn 1 × FDir 1)) : ∀ (out : Fin 1 → ℝ) (p : Fin 1),
    funFwd l out p = out p + (l.map fun e => truth e.1 e.2).sum := by
  induction l with
  | nil => intro out p; simp [funFwd]
  | cons e l ih =>
    intro out p
    obtain ⟨i, d⟩ := e
    rw [funFwd, ih, allreduce_eq, List.map_cons, List.sum_cons]
    have : ∑ q, localJvp q i d = truth i d := by
      rw [Fin.sum_univ_one]
      cases i <;> cases d <;> simp [localJvp, truth]
    rw [this, add_assoc]

/-- **C175 is false for numbers on several ranks**: the forward product is the number of ranks times the derivative. -/
theorem C175_scalar_false (s x : ℝ) (hR : 0 < R) (out : Fin R → ℝ) (p : Fin R) :
    funFwd [(.scal s, .scal fun _ => x)] out p = out p + R * truth (R := R) (.scal s) (.scal fun _ => x) ∧
    (2 ≤ R → s * x ≠ 0 → funFwd [(.scal s, .scal fun _ => x)] out p ≠ out p + truth (R := R) (.scal s) (.scal fun _ => x)) := by
  have h1 : funFwd [(.scal s, .scal fun _ => x)] out p = out p + R * truth (R := R) (.scal s) (.scal fun _ => x) := by
    show out p + allreduce (fun q => localJvp q (.scal s) (.scal fun _ => x)) p = _
    rw [allreduce_eq]
    simp [localJvp, truth, hR]
  refine ⟨h1, fun h2 hx h => ?_⟩
  rw [h1] at h
  have h3 : ((R : ℝ) - 1) * (s * x) = 0 := by
    have : truth (R := R) (.scal s) (.scal fun _ => x) = s * x := by simp [truth, hR]
    rw [this] at h
    linarith
  rcases mul_eq_zero.1 h3 with h4 | h4
  · have : (2 : ℝ) ≤ R := by exact_mod_cast h2
    linarith
  · exact hx h4

/-- What the reverse mode leaves on rank `q` for a distributed input. -/
theorem rev_dist (bar : ℝ) (g : Fin R → List ℝ) : ∀ (ps : List (Fin R)), ps.Nodup → ∀ (d : Fin R → List ℝ),
    ps.foldl (fun d p => localVjp bar p (.dist g) d) (FDir.dist d) =
      .dist fun q => if q ∈ ps then List.zipWith (fun x y => x + bar * y) (d q) (g q) else d q := by
  intro ps
  induction ps with
  | nil => intro _ d; simp
  | cons p ps ih =>
    intro hn d
    rw [List.nodup_cons] at hn
    rw [List.foldl_cons]
    show List.foldl _ (FDir.dist fun q => if q = p then List.zipWith (fun x y => x + bar * y) (d q) (g q) else d q) ps = _
    rw [ih hn.2]
    congr 1
    funext q
    by_cases h1 : q = p
    · subst h1; simp [hn.1]
    · by_cases h2 : q ∈ ps <;> simp [h1, h2]

theorem dotL_step (bar : ℝ) : ∀ (d g w : List ℝ), d.length = g.length →
    dotL (List.zipWith (fun x y => x + bar * y) d g) w = dotL d w + bar * dotL g w := by
  intro d
  induction d with
  | nil => intro g w h; cases g with
    | nil => simp [dotL]
    | cons y g => simp at h
  | cons x d ih =>
    intro g w h
    cases g with
    | nil => simp at h
    | cons y g =>
      cases w with
      | nil => simp [dotL]
      | cons z w =>
        have := ih g w (by simpa using h)
        simp only [dotL, List.zipWith_cons_cons, List.sum_cons] at this ⊢
        rw [this]; ring

/-- **C175** The reverse mode is the adjoint of the forward mode for distributed inputs: the increments on all ranks paired with a
direction give the total seed times the directional derivative. -/
theorem C175_reverse_partial (bar : Fin R → ℝ) (g d w : Fin R → List ℝ) (hd : ∀ q, (d q).length = (g q).length) :
    ∃ d', funRev bar (.dist g) (.dist d) = .dist d' ∧
      ∑ q, dotL (d' q) (w q) - ∑ q, dotL (d q) (w q) = (∑ q, bar q) * truth (.dist g) (.dist w) := by
  have h : funRev bar (.dist g) (.dist d) = .dist fun q => List.zipWith (fun x y => x + (∑ q, bar q) * y) (d q) (g q) := by
    unfold funRev
    simp only [allreduce_eq]
    rw [rev_dist _ _ _ (List.nodup_finRange R)]
    congr 1
    funext q
    simp
  refine ⟨_, h, ?_⟩
  simp only [dotL_step _ _ _ _ (hd _), Finset.sum_add_distrib, truth, Finset.mul_sum]
  ring

/-- **C175 is false for vector outputs on several ranks** (each rank has its own entries): every rank gets the sum over the ranks,
which is right exactly where the other ranks' parts cancel. -/
theorem C175_vector_false {k : ℕ} (loc out : Fin R → Fin k → ℝ) (p : Fin R) (i : Fin k) :
    vecFwd loc out p i = out p i + loc p i ↔ ∑ q ∈ Finset.univ.erase p, loc q i = 0 := by
  unfold vecFwd
  rw [allreduce_eq, ← Finset.add_sum_erase _ _ (Finset.mem_univ p)]
  constructor
  · intro h; linarith
  · intro h; rw [h]; ring

/-- … two ranks with different entries. -/
theorem C175_vector_witness_false : ∃ loc out : Fin 2 → Fin 1 → ℝ, vecFwd loc out 0 0 ≠ out 0 0 + loc 0 0 := by
  refine ⟨fun q _ => if q = 0 then 1 else 5, fun _ _ => 0, ?_⟩
  rw [Ne, C175_vector_false]
  have : (Finset.univ.erase (0 : Fin 2)) = {1} := by decide
  rw [this]; simp

/-- Non-vacuity: three ranks, a state spread over them unevenly. -/
example : ∃ l : List (FIn 3 × FDir 3), (∀ e ∈ l, IsDist e.1) ∧ (l.map fun e => truth e.1 e.2).sum = 14 :=
  ⟨[(.dist ![[1], [2, 3], []], .dist ![[1], [2, 3], []])], by simp [IsDist], by
    simp [truth, Fin.sum_univ_succ, dotL]; norm_num⟩

/-! ### C176: set-up of the groups -/

variable {O : Type}

theorem setup_reg (known : String → Bool) : ∀ (l : List (String × String × O)) (reg : List (String × O)),
    (∀ r, setupOutputs known l reg = .ok r ↔ ((l.map fun e => e.2.1).Nodup ∧ (∀ e ∈ l, known e.2.1 = true) ∧
      (∀ e ∈ l, ∀ x ∈ reg, x.1 ≠ e.2.1) ∧ r = reg ++ l.map fun e => e.2)) := by
  intro l
  induction l with
  | nil =>
    intro reg r
    simp only [setupOutputs, List.map_nil, List.nodup_nil, List.not_mem_nil, false_implies, implies_true, true_and, List.append_nil]
    constructor
    · intro h; injection h with h; exact h.symm
    · intro h; rw [h]
  | cons e l ih =>
    intro reg r
    obtain ⟨nm, f, o⟩ := e
    rw [setupOutputs]
    by_cases h1 : reg.any (fun e => e.1 = f) = true
    · rw [if_pos h1]
      refine ⟨fun h => by simp at h, fun h => ?_⟩
      rw [List.any_eq_true] at h1
      obtain ⟨x, hx, hf⟩ := h1
      exact absurd (of_decide_eq_true hf) (h.2.2.1 (nm, f, o) (by simp) x hx)
    · rw [if_neg h1]
      have h1' : ∀ x ∈ reg, x.1 ≠ f := by
        intro x hx he
        exact h1 (List.any_eq_true.2 ⟨x, hx, decide_eq_true he⟩)
      by_cases h2 : known f = true
      · rw [if_pos h2, ih]
        constructor
        · rintro ⟨a, b, c, d⟩
          refine ⟨?_, ?_, ?_, ?_⟩
          · rw [List.map_cons, List.nodup_cons]
            refine ⟨fun hm => ?_, a⟩
            rw [List.mem_map] at hm
            obtain ⟨e, he, hf⟩ := hm
            exact c e he (f, o) (by simp) hf.symm
          · intro e he
            rcases List.mem_cons.1 he with rfl | he
            · exact h2
            · exact b e he
          · intro e he x hx
            rcases List.mem_cons.1 he with rfl | he
            · exact h1' x hx
            · exact c e he x (List.mem_append_left _ hx)
          · rw [d]; simp
        · rintro ⟨a, b, c, d⟩
          rw [List.map_cons, List.nodup_cons] at a
          refine ⟨a.2, fun e he => b e (List.mem_cons_of_mem _ he), fun e he x hx => ?_, ?_⟩
          · rcases List.mem_append.1 hx with hx | hx
            · exact c e (List.mem_cons_of_mem _ he) x hx
            · obtain rfl := List.mem_singleton.1 hx
              intro hf
              exact a.1 (List.mem_map.2 ⟨e, he, hf.symm⟩)
          · rw [d]; simp
      · rw [if_neg h2]
        refine ⟨fun h => by simp at h, fun h => ?_⟩
        exact absurd (h.2.1 (nm, f, o) (by simp)) h2

/-- **C176** The outputs of a scenario are set up if and only if the *functionals* asked for are pairwise different and known to
the solver; then each is registered once with its own options. -/
theorem C176_setup (known : String → Bool) (l : List (String × String × O)) (r : List (String × O)) :
    setupOutputs known l [] = .ok r ↔ ((l.map fun e => e.2.1).Nodup ∧ (∀ e ∈ l, known e.2.1 = true) ∧ r = l.map fun e => e.2) := by
  rw [setup_reg]
  simp

/-- **C176 is false for aliases**: one functional cannot be shown under two names, with different options, in one model. -/
theorem C176_alias_false (known : String → Bool) (a b f : String) (o o' : O) (l : List (String × String × O)) :
    setupOutputs known ((a, f, o) :: (b, f, o') :: l) [] = .raised := by
  cases h : setupOutputs known ((a, f, o) :: (b, f, o') :: l) [] with
  | raised => rfl
  | ok r => rw [C176_setup] at h; simp at h

/-- The physics a solver type stands for (specification). -/
inductive Physics | flow | electromagnetics | heat
deriving DecidableEq

/-- Which types solve which physics. -/
inductive Solves : String → Physics → Prop
  | euler : Solves "euler" .flow
  | ns : Solves "navierstokes" .flow
  | mag : Solves "magnetostatic" .electromagnetics
  | thermal : Solves "thermal" .heat

/-- **C176** The groups of a scenario agree: the names are defined for exactly the known solver types, and two solver types get the same
name (of the state, of the volume coordinates, of the surface coordinates) if and only if they solve the same physics. -/
theorem C176_names (t t' : String) (P P' : Physics) (h : Solves t P) (h' : Solves t' P') :
    (stateName t).isSome ∧ (stateName t = stateName t' ↔ P = P') ∧ (meshVol t = meshVol t' ↔ P = P') ∧
      (meshSurf t = meshSurf t' ↔ P = P') ∧ (meshInit t = meshInit t' ↔ P = P') := by
  cases h <;> cases h' <;> decide

/-- **C176** Every other type is refused. -/
theorem C176_names_only (t : String) (h : ∀ P, ¬ Solves t P) :
    stateName t = none ∧ meshVol t = none ∧ meshSurf t = none ∧ meshInit t = none := by
  have e : abbreviation t = none := by
    unfold abbreviation
    rw [if_neg, if_neg, if_neg]
    · rintro rfl; exact h _ .thermal
    · rintro rfl; exact h _ .mag
    · rintro (rfl | rfl)
      · exact h _ .euler
      · exact h _ .ns
  simp [stateName, meshVol, meshSurf, meshInit, e]

/-- **C176** Within one scenario the four names of a physics are different. -/
theorem C176_names_distinct (t : String) (P : Physics) (h : Solves t P) :
    [stateName t, meshVol t, meshSurf t, meshInit t].Nodup := by
  cases h <;> decide

/-- **C176** An input that is a field of the solver gets that field's size, … -/
theorem C176_field_shape (fields : String → Option ℕ) (name : String) (s : ℕ) (hs : fields name = some s) (h0 : s ≠ 0) :
    inputShape fields name = s := by simp [inputShape, hs, h0]

/-- … **but is false for misspelt names**: a name the solver does not know becomes an input of one number without complaint, and
no integrator receives it. -/
theorem C176_misspelt_false (fields : String → Option ℕ) (integs : List String) (name : String) (hf : fields name = none)
    (hi : name ∉ integs) : inputShape fields name = 1 ∧ takesScalar integs name = false := by
  refine ⟨by simp [inputShape, hf], ?_⟩
  simp [takesScalar, hi]

/-- Non-vacuity. -/
example : setupOutputs (O := ℕ) (fun s => s = "energy" ∨ s = "volume") [("W", "energy", 1), ("V", "volume", 2)] [] =
    .ok [("energy", 1), ("volume", 2)] := by
  rw [C176_setup]
  refine ⟨by decide, by simp, rfl⟩

end Verif.Py
