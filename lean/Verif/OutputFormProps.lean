import Verif.OutputForms
import Mathlib.Analysis.Calculus.Deriv.Add
import Mathlib.Analysis.Calculus.Deriv.Mul
import Mathlib.Analysis.Calculus.Deriv.Pow

/-!
Properties C148 (functional outputs) and C149 (loads).
-/

namespace Verif.OutForms

set_option linter.unusedSimpArgs false

/-! ### Specification -/

/-- Specification: inputs with one of them replaced. -/
def Inputs.put (i : Inputs) (s : String) (x : Inp) : Inputs := fun r => if r = s then some x else i r

/-- Specification: an environment with one field replaced. -/
def Env.put (e : Env) (s : String) (v : V) : Env :=
  { e with field := fun r => if r = s then some v else e.field r }

/-- Specification: the point `u + t v`. -/
abbrev line (u v : V) (t : ℝ) : V := addMul t u v

/-- Specification: `mult` is the gradient of the value with respect to the state. -/
def FForm.StateExact (F : FForm) : Prop := ∀ e u v, u.length = F.size → v.length = F.size →
  HasDerivAt (fun t => F.energy e (line u v t)) (dot (F.mult e u) v) 0

/-- Specification: the value depends on the state only through the argument, not through the field `state`. -/
def FForm.NoStateField (F : FForm) : Prop := ∀ e e' u, (∀ s, s ≠ "state" → e.field s = e'.field s) →
  e.scalar = e'.scalar → F.energy e u = F.energy e' u

/-- Specification: the registered sensitivity to the field `wrt` is the gradient of the value, when the state is what
its field holds. -/
def FForm.FieldExact (F : FForm) (wrt : String) (g : Env → V) : Prop := ∀ e w v u, e.field wrt = some w →
  e.field F.stateName = some u → w.length = v.length → (g e).length = v.length →
  HasDerivAt (fun t => F.energy (e.put wrt (line w v t)) u) (dot (g e) v) 0

/-! ### Lists -/

theorem dot_addMul (a : ℝ) : ∀ (y x v : V), y.length = x.length → dot (addMul a y x) v = dot y v + a * dot x v
  | [], [], v, _ => by simp [dot, addMul]
  | p :: y, q :: x, [], _ => by simp [dot, addMul]
  | p :: y, q :: x, r :: v, h => by
    have ih := dot_addMul a y x v (by simpa using h)
    simp only [dot, addMul, List.zipWith_cons_cons, List.sum_cons] at ih ⊢
    rw [ih]; ring

theorem dot_add (y x v : V) (h : y.length = x.length) : dot (List.zipWith (· + ·) y x) v = dot y v + dot x v := by
  have := dot_addMul 1 y x v h
  simpa [addMul] using this

theorem dot_comm (x v : V) : dot x v = dot v x := by
  unfold dot
  rw [List.zipWith_comm]
  simp only [mul_comm]

theorem dot_add_right (v y x : V) (h : y.length = x.length) :
    dot v (List.zipWith (· + ·) y x) = dot v y + dot v x := by
  rw [dot_comm, dot_add y x v h, dot_comm y, dot_comm x]

theorem addMul_zero : ∀ (u v : V), u.length = v.length → addMul 0 u v = u
  | [], [], _ => rfl
  | a :: u, b :: v, h => by
    have := addMul_zero u v (by simpa using h)
    simp only [addMul, List.zipWith_cons_cons, zero_mul, add_zero] at this ⊢
    rw [this]

theorem addMul_length (a : ℝ) (u v : V) (h : u.length = v.length) : (addMul a u v).length = u.length := by
  simp [addMul, h]

/-! ### C148 -/

/-- **C148** The value is that of the form at the supplied state, with the supplied fields and scalars. -/
theorem C148_value (F : FForm) (fresh : ℕ → V → V) (o : FObj) (i : Inputs) (u : V)
    (hi : i F.stateName = some (.vec u)) (hu : u.length = F.size) :
    (calcOutput F fresh o i).2 = F.energy (setInputs o.env i) u := by
  unfold calcOutput
  simp only [hi, hu, ne_eq, not_true_eq_false, if_false]

/-- **C148** The value does not depend on the history of the object if the inputs supply the state, all registered
fields, and the scalars the form uses. -/
theorem C148_history (F : FForm) (fresh fresh' : ℕ → V → V) (o o' : FObj) (i : Inputs) (u : V) (S : String → Prop)
    (hi : i F.stateName = some (.vec u)) (hu : u.length = F.size)
    (hreg : ∀ s, (o.env.field s).isSome = (o'.env.field s).isSome)
    (hf : ∀ s, (o.env.field s).isSome → ∃ v, i s = some (.vec v)) (hs : ∀ s, S s → ∃ x, i s = some (.num x))
    (hdep : ∀ e e' u, e.field = e'.field → (∀ s, S s → e.scalar s = e'.scalar s) → F.energy e u = F.energy e' u) :
    (calcOutput F fresh o i).2 = (calcOutput F fresh' o' i).2 := by
  rw [C148_value F fresh o i u hi hu, C148_value F fresh' o' i u hi hu]
  refine hdep _ _ u ?_ fun s h => ?_
  · funext s
    have hr := hreg s
    simp only [setInputs]
    cases e : o.env.field s with
    | none =>
      rw [e] at hr
      cases e' : o'.env.field s with
      | none => rfl
      | some w => rw [e'] at hr; cases hr
    | some w =>
      obtain ⟨v, hv⟩ := hf s (by rw [e]; rfl)
      rw [e] at hr
      cases e' : o'.env.field s with
      | none => rw [e'] at hr; cases hr
      | some w' => rw [hv]
  · obtain ⟨x, hx⟩ := hs s h
    simp only [setInputs, hx]

/-- **C148** Inputs that are not supplied keep the value of the last call that supplied them. -/
theorem C148_sticky (F : FForm) (fresh : ℕ → V → V) (o : FObj) (i i' : Inputs) (s : String) (hs : i' s = none) :
    let o1 := (calcOutput F fresh o i).1
    let o2 := (calcOutput F fresh o1 i').1
    o2.env.field s = o1.env.field s ∧ o2.env.scalar s = o1.env.scalar s := by
  have henv : ∀ o i, (calcOutput F fresh o i).1.env = setInputs o.env i := by
    intro o i
    unfold calcOutput
    cases i F.stateName with
    | none => simp only; split <;> rfl
    | some x => cases x <;> simp only <;> split <;> rfl
  intro o1 o2
  simp only [o2, henv, setInputs, hs]
  refine ⟨?_, trivial⟩
  cases o1.env.field s <;> rfl

/-- **C148** (partial) Forward and reverse products are adjoint to each other - for `state`, and for every other field
with more than one degree of freedom. -/
theorem C148_adjoint_partial (F : FForm) (o o1 o2 : FObj) (wrt : String) (v bar bar' : V) (outBar d : ℝ)
    (hl : v.length = bar.length) (hm : ∀ e u, (F.mult e u).length = F.size) (h1 : wrt = "state" ∨ v.length ≠ 1)
    (hj : jvp F o v wrt = some (o1, d)) (hv : vjp F o outBar wrt bar = some (o2, bar')) :
    dot bar' v = dot bar v + outBar * d := by
  unfold jvp at hj
  unfold vjp at hv
  by_cases hs : wrt = "state"
  · rw [if_pos hs] at hj hv
    rw [Option.map_eq_some_iff] at hj hv
    obtain ⟨a, ha, hj⟩ := hj
    obtain ⟨b, hb, hv⟩ := hv
    rw [hl] at ha
    rw [ha] at hb
    injection hb with hb
    subst hb
    have hlen : a.length = bar.length := by
      unfold multAt at ha
      cases e : o.env.field "state" with
      | none => rw [e] at ha; cases ha
      | some u =>
        rw [e] at ha
        simp only [Option.bind_some] at ha
        split at ha
        · rename_i hc
          injection ha with ha
          rw [← ha, hm, hc.2]
        · cases ha
    injection hj with _ hj
    injection hv with _ hv
    rw [← hv, ← hj, dot_addMul _ _ _ _ hlen.symm]
  · rw [if_neg hs] at hj hv
    rw [if_neg (h1.resolve_left hs)] at hj
    rw [Option.map_eq_some_iff] at hj hv
    obtain ⟨a, ha, hj⟩ := hj
    obtain ⟨b, hb, hv⟩ := hv
    rw [hl] at ha
    rw [ha] at hb
    injection hb with hb
    subst hb
    have hlen : a.length = bar.length := by
      unfold sensAt at ha
      cases e : F.sens wrt with
      | none => rw [e] at ha; cases ha
      | some g =>
        rw [e] at ha
        simp only [Option.bind_some] at ha
        split at ha
        · rename_i hc
          injection ha with ha
          rw [← ha, hc]
        · cases ha
    injection hj with _ hj
    injection hv with _ hv
    rw [← hv, ← hj, dot_addMul _ _ _ _ hlen.symm]

/-- **C148** (counterexample) For a field with a single degree of freedom the forward product looks for a scalar of
that name: the reverse product works, the forward one throws. -/
theorem C148_one_dof_false : ∃ (F : FForm) (o : FObj), (∃ g, F.sens "temperature" = some g ∧ F.FieldExact "temperature" g) ∧
    (vjp F o 1 "temperature" [0]).isSome ∧ jvp F o [1] "temperature" = none := by
  refine ⟨⟨2, "state", fun e u => u.sum * ((e.field "temperature").getD []).sum, fun _ u => u,
    fun s => if s = "temperature" then some fun e => [((e.field "state").getD []).sum] else none, fun _ => none⟩,
    ⟨⟨fun s => if s = "temperature" then some [3] else if s = "state" then some [1, 2] else none, fun _ => 0⟩, []⟩,
    ⟨_, rfl, ?_⟩, rfl, rfl⟩
  intro e w v u hw hu hl hg
  simp only [List.length_cons, List.length_nil, zero_add] at hg
  obtain ⟨a, rfl⟩ := List.length_eq_one_iff.1 hg.symm
  obtain ⟨b, rfl⟩ := List.length_eq_one_iff.1 (hl.trans hg.symm)
  have hu' : e.field "state" = some u := hu
  simp only [Env.put, if_true, Option.getD_some, line, addMul, List.zipWith_cons_cons, List.zipWith_nil_left, dot,
    List.sum_cons, List.sum_nil, add_zero, hu']
  exact ((((hasDerivAt_id' (0 : ℝ)).mul_const a).const_add b).const_mul _).congr_deriv (by ring)

/-- **C148** Forward and reverse products with respect to a scalar agree. -/
theorem C148_scalar (F : FForm) (o o1 : FObj) (wrt : String) (x d s outBar : ℝ) (hw : wrt ≠ "state")
    (hj : jvp F o [x] wrt = some (o1, d)) (hv : vjpScalar F o outBar wrt = some s) : s * x = outBar * d := by
  unfold jvp at hj
  unfold vjpScalar at hv
  rw [if_neg hw, if_pos (by rfl)] at hj
  rw [Option.map_eq_some_iff] at hj hv
  obtain ⟨a, ha, hj⟩ := hj
  obtain ⟨b, hb, hv⟩ := hv
  rw [ha] at hb
  injection hb with hb
  subst hb
  injection hj with _ hj
  rw [← hv, ← hj]
  simp [dot]
  ring

theorem setInputs_put (e : Env) (i : Inputs) (s : String) (v w : V) (hs : (e.field s).isSome)
    (hi : i s = some (.vec w)) : setInputs (setInputs e i) (i.put s (.vec v)) = (setInputs e i).put s v := by
  unfold setInputs Inputs.put Env.put
  congr 1
  · funext r
    by_cases h : r = s
    · subst h
      obtain ⟨y, hy⟩ := Option.isSome_iff_exists.1 hs
      simp only [if_true, hy, hi]
    · simp only [h, if_false]
      cases e.field r with
      | none => rfl
      | some y =>
        cases i r with
        | none => rfl
        | some x => cases x <;> rfl
  · funext r
    by_cases h : r = s
    · subst h; simp only [if_true, hi]
    · simp only [h, if_false]
      cases i r with
      | none => rfl
      | some x => cases x <;> rfl

theorem calcOutput_env (F : FForm) (fresh : ℕ → V → V) (o : FObj) (i : Inputs) :
    (calcOutput F fresh o i).1.env = setInputs o.env i := by
  unfold calcOutput
  cases i F.stateName with
  | none => simp only; split <;> rfl
  | some x => cases x <;> simp only <;> split <;> rfl

/-- **C148** (partial) After the value has been computed, the product with respect to `state` is the derivative of the
value with respect to the supplied state - for outputs whose state is called `state`. -/
theorem C148_state_derivative_partial (F : FForm) (fresh : ℕ → V → V) (o : FObj) (i : Inputs) (u v : V)
    (hF : F.StateExact) (hN : F.NoStateField) (hn : F.stateName = "state") (hreg : (o.env.field "state").isSome)
    (hi : i "state" = some (.vec u)) (hu : u.length = F.size) (hv : v.length = F.size) :
    ∃ o2 d, jvp F (calcOutput F fresh o i).1 v "state" = some (o2, d) ∧
      HasDerivAt (fun t => (calcOutput F fresh (calcOutput F fresh o i).1 (i.put "state" (.vec (line u v t)))).2) d 0 := by
  have hst : (setInputs o.env i).field "state" = some u := by
    obtain ⟨y, hy⟩ := Option.isSome_iff_exists.1 hreg
    simp only [setInputs, hy, hi]
  refine ⟨⟨setInputs o.env i, F.mult (setInputs o.env i) u⟩, dot (F.mult (setInputs o.env i) u) v, ?_, ?_⟩
  · unfold jvp multAt
    rw [if_pos rfl, calcOutput_env, hst, Option.bind_some, if_pos ⟨hu, hv⟩]
    rfl
  · refine (hF (setInputs o.env i) u v hu hv).congr_of_eventuallyEq (Filter.Eventually.of_forall fun t => ?_)
    show (calcOutput F fresh (calcOutput F fresh o i).1 (i.put "state" (.vec (line u v t)))).2 = _
    rw [C148_value F fresh _ (i.put "state" (.vec (line u v t))) (line u v t) (by rw [hn]; simp [Inputs.put])
      (by rw [addMul_length _ _ _ (hu.trans hv.symm), hu]), calcOutput_env, setInputs_put _ _ _ _ u hreg hi]
    exact hN _ _ _ (fun s hs => by simp [Env.put, hs]) rfl

/-- **C148** After the value has been computed, the product with respect to a field other than the state is the
derivative of the value with respect to the supplied field. -/
theorem C148_field_derivative (F : FForm) (fresh : ℕ → V → V) (o : FObj) (i : Inputs) (u w v : V) (wrt : String)
    (g : Env → V) (hg : F.sens wrt = some g) (hE : F.FieldExact wrt g) (hs : wrt ≠ "state") (hsn : wrt ≠ F.stateName)
    (hreg : (o.env.field wrt).isSome) (hreg' : (o.env.field F.stateName).isSome) (hu : i F.stateName = some (.vec u))
    (hul : u.length = F.size) (hw : i wrt = some (.vec w)) (hv : v.length = w.length) (h1 : v.length ≠ 1)
    (hgl : (g (setInputs o.env i)).length = v.length) :
    ∃ o2 d, jvp F (calcOutput F fresh o i).1 v wrt = some (o2, d) ∧
      HasDerivAt (fun t => (calcOutput F fresh (calcOutput F fresh o i).1 (i.put wrt (.vec (line w v t)))).2) d 0 := by
  have field_of : ∀ s y, (o.env.field s).isSome → i s = some (.vec y) → (setInputs o.env i).field s = some y := by
    intro s y h h'
    obtain ⟨z, hz⟩ := Option.isSome_iff_exists.1 h
    simp only [setInputs, hz, h']
  refine ⟨⟨setInputs o.env i, g (setInputs o.env i)⟩, dot (g (setInputs o.env i)) v, ?_, ?_⟩
  · unfold jvp sensAt
    rw [if_neg hs, if_neg h1, calcOutput_env, hg, Option.bind_some, if_pos hgl]
    rfl
  · refine (hE (setInputs o.env i) w v u (field_of _ _ hreg hw) (field_of _ _ hreg' hu) hv.symm hgl).congr_of_eventuallyEq
      (Filter.Eventually.of_forall fun t => ?_)
    show (calcOutput F fresh (calcOutput F fresh o i).1 (i.put wrt (.vec (line w v t)))).2 = _
    rw [C148_value F fresh _ (i.put wrt (.vec (line w v t))) u (by simp [Inputs.put, Ne.symm hsn, hu]) hul,
      calcOutput_env, setInputs_put _ _ _ _ w hreg hw]

/-- **C148** (counterexample) For an output whose state has another name (the AC losses: `peak_flux`) the product with
respect to `state` evaluates the gradient at the field `state`, which the value does not depend on: the value does not
change with the input `state`, the reported derivative is not zero. -/
theorem C148_state_name_false : ∃ (F : FForm) (o : FObj) (i : Inputs) (v : V), F.StateExact ∧ F.NoStateField ∧
    (∀ fresh x, (calcOutput F fresh o (i.put "state" (.vec x))).2 = (calcOutput F fresh o i).2) ∧
    ∀ fresh, ∃ o2 d, jvp F (calcOutput F fresh o i).1 v "state" = some (o2, d) ∧ d ≠ 0 := by
  refine ⟨⟨1, "peak_flux", fun _ u => (u.headD 0) ^ 2, fun _ u => [2 * u.headD 0], fun _ => none, fun _ => none⟩,
    ⟨⟨fun s => if s = "state" ∨ s = "peak_flux" then some [1] else none, fun _ => 0⟩, []⟩,
    fun s => if s = "peak_flux" then some (.vec [3]) else if s = "state" then some (.vec [5]) else none, [1], ?_, ?_, ?_, ?_⟩
  · intro e u v hu hv
    obtain ⟨a, rfl⟩ := List.length_eq_one_iff.1 hu
    obtain ⟨b, rfl⟩ := List.length_eq_one_iff.1 hv
    simp only [line, addMul, List.zipWith_cons_cons, List.zipWith_nil_left, List.headD_cons, dot, List.sum_cons,
      List.sum_nil, add_zero]
    refine ((((hasDerivAt_id' (0 : ℝ)).mul_const b).const_add a).fun_pow 2).congr_deriv ?_
    norm_num
  · intro e e' u _ _; rfl
  · intro fresh x
    rw [C148_value _ fresh _ _ [3] (by simp [Inputs.put]) rfl, C148_value _ fresh _ _ [3] (by simp) rfl]
  · intro fresh
    unfold jvp multAt
    rw [if_pos rfl, calcOutput_env]
    refine ⟨_, _, by simp [setInputs]; exact ⟨rfl, rfl⟩, ?_⟩
    simp [dot]

/-- **C148** (counterexample) Without a state among the inputs the value is not that of the state supplied last: after a
derivative has been requested it is the value at the gradient. -/
theorem C148_missing_state_false : ∃ (F : FForm) (o : FObj) (i : Inputs), F.StateExact ∧ F.stateName = "state" ∧
    i "state" = some (.vec [3]) ∧ ∀ fresh,
      let o1 := (calcOutput F fresh o i).1
      o1.env.field "state" = some [3] ∧
      (calcOutput F fresh o i).2 = 9 ∧
      ∃ o2 d, jvp F o1 [1] "state" = some (o2, d) ∧ (calcOutput F fresh o2 fun _ => none).2 = 36 := by
  refine ⟨⟨1, "state", fun _ u => (u.headD 0) ^ 2, fun _ u => [2 * u.headD 0], fun _ => none, fun _ => none⟩,
    ⟨⟨fun s => if s = "state" then some [1] else none, fun _ => 0⟩, []⟩,
    fun s => if s = "state" then some (.vec [3]) else none, ?_, rfl, rfl, ?_⟩
  · intro e u v hu hv
    obtain ⟨a, rfl⟩ := List.length_eq_one_iff.1 hu
    obtain ⟨b, rfl⟩ := List.length_eq_one_iff.1 hv
    simp only [line, addMul, List.zipWith_cons_cons, List.zipWith_nil_left, List.headD_cons, dot, List.sum_cons,
      List.sum_nil, add_zero]
    refine ((((hasDerivAt_id' (0 : ℝ)).mul_const b).const_add a).fun_pow 2).congr_deriv ?_
    norm_num
  · intro fresh
    refine ⟨?_, ?_, ?_⟩
    · rw [calcOutput_env]; simp [setInputs]
    · rw [C148_value _ fresh _ _ [3] (by simp) rfl]; norm_num
    · unfold jvp multAt
      rw [if_pos rfl, calcOutput_env]
      refine ⟨_, _, by simp [setInputs]; exact ⟨rfl, rfl⟩, ?_⟩
      simp [calcOutput, resize]
      norm_num

/-! ### C149: loads -/

/-- **C149** Adding a load changes exactly the free degrees of freedom, by the assembled load; degrees of freedom with
essential conditions are left alone. -/
theorem C149_load (L : LForm) (e : Env) (tv : V) (h : (L.load e).length = tv.length) (k : ℕ) (hk : k < tv.length) :
    (addLoad L e tv).getD k 0 = tv.getD k 0 + if L.ess k then 0 else (L.load e).getD k 0 := by
  have hk' : k < (L.load e).length := by omega
  simp only [addLoad, mask, List.getD_eq_getElem?_getD, List.getElem?_zipWith, List.getElem?_mapIdx,
    List.getElem?_eq_getElem hk, List.getElem?_eq_getElem hk', Option.map_some, Option.getD_some]

theorem dot_mask_aux (p : ℕ → Bool) : ∀ (a b : V) (k : ℕ),
    dot (a.mapIdx fun i x => if p (i + k) then 0 else x) b = dot a (b.mapIdx fun i x => if p (i + k) then 0 else x)
  | [], b, k => by simp [dot]
  | a :: l, [], k => by simp [dot]
  | a :: l, b :: m, k => by
    have ih := dot_mask_aux p l m (k + 1)
    simp only [dot, List.mapIdx_cons, List.zipWith_cons_cons, List.sum_cons, zero_add] at ih ⊢
    have e : ∀ i : ℕ, i + 1 + k = i + (k + 1) := fun i => by omega
    simp only [e]
    rw [ih]
    split <;> simp

theorem dot_mask (p : ℕ → Bool) (a b : V) : dot (mask p a) b = dot a (mask p b) := by
  have := dot_mask_aux p a b 0
  simpa [mask] using this

/-- Specification: the registered reverse sensitivity to the field `wrt` is the gradient of the assembled load tested with the
adjoint field. -/
def LForm.FieldExact (L : LForm) (wrt : String) (g : Env → V) : Prop := ∀ e w v psi, e.field wrt = some w →
  e.field L.adjointName = some psi → w.length = v.length →
  HasDerivAt (fun t => dot psi (L.load (e.put wrt (line w v t)))) (dot (g e) v) 0

/-- Specification: likewise for a scalar. -/
def LForm.ScalarExact (L : LForm) (wrt : String) (g : Env → ℝ) : Prop := ∀ e psi, e.field L.adjointName = some psi →
  HasDerivAt (fun x => dot psi (L.load { e with scalar := fun r => if r = wrt then x else e.scalar r })) (g e) (e.scalar wrt)

/-- Specification: the load does not depend on the adjoint field. -/
def LForm.NoAdjoint (L : LForm) : Prop := ∀ e e', (∀ s, s ≠ L.adjointName → e.field s = e'.field s) →
  e.scalar = e'.scalar → L.load e = L.load e'

/-- **C149** The reverse product with respect to a field adds the gradient of the seed-weighted load that `addLoad`
adds, essential degrees of freedom included. -/
theorem C149_reverse (L : LForm) (e : Env) (loadBar wrtBar w v tv : V) (wrt : String) (g : Env → V)
    (hg : L.rev wrt = some g) (hE : L.FieldExact wrt g) (hN : L.NoAdjoint) (hw : e.field wrt = some w)
    (hne : wrt ≠ L.adjointName) (hl : w.length = v.length) (hb : ∀ e, (g e).length = wrtBar.length)
    (ht : ∀ e, (L.load e).length = tv.length) :
    ∃ d, dot (lfVjp L e loadBar wrt wrtBar) v = dot wrtBar v + d ∧
      HasDerivAt (fun t => dot loadBar (addLoad L (e.put wrt (line w v t)) tv)) d 0 := by
  set e' := setAdjoint L e (mask L.ess loadBar) with he'
  refine ⟨dot (g e') v, ?_, ?_⟩
  · unfold lfVjp
    simp only [hg]
    rw [dot_add _ _ _ (hb _).symm]
  · have h := hE e' w v (mask L.ess loadBar) (by simp [he', setAdjoint, hne, hw]) (by simp [he', setAdjoint]) hl
    have hload : ∀ t, L.load (e.put wrt (line w v t)) = L.load (e'.put wrt (line w v t)) := by
      intro t
      refine hN _ _ (fun s hs => ?_) rfl
      simp only [Env.put, he', setAdjoint]
      split
      · rfl
      · rfl
    have hm : ∀ l, (mask L.ess l).length = l.length := fun l => by simp [mask]
    have : (fun t => dot loadBar (addLoad L (e.put wrt (line w v t)) tv)) = fun t =>
        dot loadBar tv + dot (mask L.ess loadBar) (L.load (e'.put wrt (line w v t))) := by
      funext t
      unfold addLoad
      rw [dot_add_right _ _ _ (by rw [hm, ht]), ← dot_mask, hload]
    rw [this]
    exact h.const_add _

/-- **C149** (partial) The reverse product with respect to a scalar is the derivative of the seed-weighted load if the
seed vanishes at the essential degrees of freedom. -/
theorem C149_reverse_scalar_partial (L : LForm) (e : Env) (loadBar tv : V) (wrt : String) (g : Env → ℝ)
    (hg : L.revScalar wrt = some g) (hE : L.ScalarExact wrt g) (hN : L.NoAdjoint) (hst : (e.field "state").isSome)
    (hz : mask L.ess loadBar = loadBar) (ht : ∀ e, (L.load e).length = tv.length) :
    ∃ d, lfVjpScalar L e loadBar wrt = some d ∧
      HasDerivAt (fun x => dot loadBar (addLoad L { e with scalar := fun r => if r = wrt then x else e.scalar r } tv)) d
        (e.scalar wrt) := by
  set e' := setAdjoint L e loadBar with he'
  refine ⟨g e', ?_, ?_⟩
  · unfold lfVjpScalar
    simp only [hg]
    have : ((setAdjoint L e loadBar).field "state").isSome := by
      simp only [setAdjoint]; split <;> simp [hst]
    obtain ⟨y, hy⟩ := Option.isSome_iff_exists.1 this
    rw [hy]; rfl
  · have h := hE e' loadBar (by simp [he', setAdjoint])
    have hm : ∀ l, (mask L.ess l).length = l.length := fun l => by simp [mask]
    have : (fun x => dot loadBar (addLoad L { e with scalar := fun r => if r = wrt then x else e.scalar r } tv)) = fun x =>
        dot loadBar tv + dot loadBar (L.load { e' with scalar := fun r => if r = wrt then x else e'.scalar r }) := by
      funext x
      unfold addLoad
      rw [dot_add_right _ _ _ (by rw [hm, ht]), ← dot_mask, hz]
      congr 2
      exact hN _ _ (fun s hs => by simp [he', setAdjoint, hs]) rfl
    rw [this]
    exact h.const_add _

/-- **C149** (counterexample) With a nonzero seed at an essential degree of freedom the scalar reverse product reports
a derivative of a load that is not applied: here the load vector never changes. -/
theorem C149_reverse_scalar_false : ∃ (L : LForm) (e : Env) (g : Env → ℝ), L.revScalar "frequency" = some g ∧
    L.ScalarExact "frequency" g ∧ L.NoAdjoint ∧
    (∀ x tv, addLoad L { e with scalar := fun r => if r = "frequency" then x else e.scalar r } tv = addLoad L e tv) ∧
    lfVjpScalar L e [1] "frequency" = some 1 := by
  refine ⟨⟨fun _ => true, "adjoint", fun e => [e.scalar "frequency"], fun _ => false, fun _ => false, fun _ => none,
    fun s => if s = "frequency" then some fun e => ((e.field "adjoint").getD []).headD 0 else none⟩,
    ⟨fun s => if s = "state" then some [] else none, fun _ => 0⟩, _, rfl, ?_, ?_, ?_, ?_⟩
  · intro e psi hp
    simp only at hp
    simp only [hp, Option.getD_some]
    cases psi with
    | nil => simp [dot]; exact hasDerivAt_const _ _
    | cons a l =>
      simp only [dot, List.zipWith_cons_cons, if_true, List.zipWith_nil_right, List.sum_cons, List.sum_nil, add_zero,
        List.headD_cons]
      exact ((hasDerivAt_id' _).const_mul a).congr_deriv (mul_one a)
  · intro e e' _ h; simp only [h]
  · intro x tv; simp [addLoad, mask]
  · simp [lfVjpScalar, setAdjoint]

/-- **C149** (counterexample) The forward products of a load never report a derivative: whenever they return, the result
vector is unchanged and the scalar product zero - so they are wrong for every load with a nonzero derivative. -/
theorem C149_forward_false :
    (∀ (L : LForm) (wrt : String) (r r' : V), lfJvp L wrt r = some r' → r' = r) ∧
    (∀ (L : LForm) (wrt : String) (d : ℝ), lfJvpScalar L wrt = some d → d = 0) ∧
    ∃ (L : LForm) (e : Env) (g : Env → ℝ), L.revScalar "frequency" = some g ∧ L.ScalarExact "frequency" g ∧
      lfJvpScalar L "frequency" = some 0 ∧ lfVjpScalar L e [1] "frequency" = some 1 := by
  refine ⟨fun L wrt r r' h => ?_, fun L wrt d h => ?_, ?_⟩
  · unfold lfJvp at h; split at h
    · cases h
    · injection h with h; exact h.symm
  · unfold lfJvpScalar at h; split at h
    · cases h
    · injection h with h; exact h.symm
  · obtain ⟨L, e, g, h1, h2, h3, h4, h5⟩ := C149_reverse_scalar_false
    exact ⟨{ L with fwdScalar := fun _ => false }, e, g, h1, h2, rfl, h5⟩

/-- Non-vacuity of the exactness hypotheses: a quadratic output and a load that depends on a field, with one essential
degree of freedom. -/
example : ∃ (F : FForm) (L : LForm) (g : Env → V), F.StateExact ∧ F.NoStateField ∧ F.size = 1 ∧ L.rev "temperature" = some g ∧
    L.FieldExact "temperature" g ∧ L.NoAdjoint ∧ ∃ k, L.ess k = true := by
  refine ⟨⟨1, "state", fun _ u => (u.headD 0) ^ 2, fun _ u => [2 * u.headD 0], fun _ => none, fun _ => none⟩,
    ⟨fun k => k == 0, "adjoint", fun e => (e.field "temperature").getD [], fun _ => false, fun _ => false,
      fun s => if s = "temperature" then some fun e => (e.field "adjoint").getD [] else none, fun _ => none⟩, _,
    ?_, fun _ _ _ _ _ => rfl, rfl, rfl, ?_, ?_, ⟨0, rfl⟩⟩
  · intro e u v hu hv
    obtain ⟨a, rfl⟩ := List.length_eq_one_iff.1 hu
    obtain ⟨b, rfl⟩ := List.length_eq_one_iff.1 hv
    simp only [line, addMul, List.zipWith_cons_cons, List.zipWith_nil_left, List.headD_cons, dot, List.sum_cons,
      List.sum_nil, add_zero]
    refine ((((hasDerivAt_id' (0 : ℝ)).mul_const b).const_add a).fun_pow 2).congr_deriv ?_
    norm_num
  · intro e w v psi hw hp hl
    simp only at hp
    simp only [Env.put, if_true, Option.getD_some, hp]
    have : (fun t => dot psi (line w v t)) = fun t => dot psi w + t * dot psi v := by
      funext t
      rw [dot_comm, dot_addMul _ _ _ _ hl, dot_comm w, dot_comm v]
    rw [this]
    exact (((hasDerivAt_id' (0 : ℝ)).mul_const _).const_add _).congr_deriv (by ring)
  · intro e e' h _
    simp only [h "temperature" (by simp)]

end Verif.OutForms
