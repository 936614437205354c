import Mathlib.Analysis.Calculus.Deriv.Add
import Mathlib.Analysis.Calculus.Deriv.Mul
import Mathlib.Analysis.Calculus.Deriv.Prod
import Mathlib.LinearAlgebra.Matrix.DotProduct
import Mathlib.Tactic.Linarith
import Mathlib.Tactic.NormNum
import Verif.NonlinearForm
import Verif.BoundaryProps

/-! # `MISONonlinearForm`: property theorems (C36–C40) -/

namespace Verif.NLForm

open Matrix

set_option linter.unusedSectionVars false

variable {n : ℕ} {P : Type}

/-! ### Specification -/

/-- The residual the user sees: assembled residual on free dofs; on essential dofs `u - bc` if boundary values are registered, else 0. -/
def residual (F : Phys n P) (ess : Finset (Fin n)) (bc : Option (Vec n)) (p : P) (u : Vec n) : Vec n := fun i =>
  if i ∈ ess then (match bc with | some b => u i - b i | none => 0) else F.R p u i

/-- `L` is the derivative of `G` at `u` in every direction. -/
def IsDeriv {m k : ℕ} (G : Vec m → Vec k) (u : Vec m) (L : Vec m → Vec k) : Prop :=
  ∀ v, HasDerivAt (fun t : ℝ => G (u + t • v)) (L v) 0

/-- The public calls on a form. -/
inductive Call (n : ℕ) (P : Type)
  | setInputs (p : P)
  | evaluate (u : Vec n)
  | getJacobian (u : Vec n)
  | getJacobianTranspose
  | linearize (p : P) (u : Vec n)
  | jvp (w r : Vec n)
  | vjp (r w : Vec n)
  | setUpAdjoint (s a : Vec n)
  | finalizeAdjoint (a : Vec n)

/-- Effect of a call on the object (a call that throws leaves it unchanged). -/
def step (F : Phys n P) (f : Form n P) : Call n P → Form n P
  | .setInputs p => f.setInputs p
  | .evaluate u => (f.evaluate F u).1
  | .getJacobian u => f.getJacobian F u
  | .getJacobianTranspose => (f.getJacobianTranspose.map Prod.fst).getD f
  | .linearize p u => f.linearize F p u
  | .jvp w r => ((f.jvpState w r).map Prod.fst).getD f
  | .vjp r w => ((f.vjpState r w).map Prod.fst).getD f
  | .setUpAdjoint s a => ((f.setUpAdjoint s a).map Prod.fst).getD f
  | .finalizeAdjoint _ => f

/-- Run a history of calls. -/
def run (F : Phys n P) (f : Form n P) (h : List (Call n P)) : Form n P := h.foldl (step F) f

/-- Parameters most recently set. -/
def lastParams (p : P) : List (Call n P) → P
  | [] => p
  | .setInputs q :: h => lastParams q h
  | .linearize q _ :: h => lastParams q h
  | _ :: h => lastParams p h

/-- A freshly constructed form. -/
def fresh (ess : Finset (Fin n)) (bc : Option (Vec n)) (p : P) : Form n P := ⟨ess, p, bc, none, none, none, 0⟩

/-! ### C36 -/

theorem evaluate_eq (F : Phys n P) (f : Form n P) (u : Vec n) :
    (f.evaluate F u).2 = residual F f.ess f.bc f.p u := by
  unfold Form.evaluate residual
  simp only
  by_cases he : f.ess = ∅
  · rw [if_pos he]
    funext i
    simp [zeroEss, he]
  · rw [if_neg he]
    cases f.bc with
    | none => simp only; rfl
    | some b =>
      simp only
      funext i
      by_cases hi : i ∈ f.ess <;> simp [zeroEss, hi]

/-- What a history leaves unchanged / sets. -/
private theorem step_keep (F : Phys n P) (f : Form n P) (c : Call n P) :
    (step F f c).ess = f.ess ∧ (step F f c).bc = f.bc := by
  cases c with
  | setInputs p => exact ⟨rfl, rfl⟩
  | evaluate u =>
    simp only [step, Form.evaluate]
    split_ifs
    · exact ⟨rfl, rfl⟩
    · split <;> exact ⟨rfl, rfl⟩
  | getJacobian u => exact ⟨rfl, rfl⟩
  | getJacobianTranspose =>
    simp only [step, Form.getJacobianTranspose]
    split
    · exact ⟨rfl, rfl⟩
    · split <;> exact ⟨rfl, rfl⟩
  | linearize p u =>
    simp only [step, Form.linearize, Form.setInputs, Form.getJacobian]
    constructor <;> split <;> split <;> rfl
  | jvp w r => simp only [step, Form.jvpState]; split <;> exact ⟨rfl, rfl⟩
  | vjp r w => simp only [step, Form.vjpState]; split <;> exact ⟨rfl, rfl⟩
  | setUpAdjoint s a =>
    simp only [step, Form.setUpAdjoint, Form.getJacobianTranspose]
    cases f.jacT with
    | some T => simp only; split_ifs <;> exact ⟨rfl, rfl⟩
    | none =>
      cases f.jac with
      | some A => simp only; split_ifs <;> exact ⟨rfl, rfl⟩
      | none => exact ⟨rfl, rfl⟩
  | finalizeAdjoint a => exact ⟨rfl, rfl⟩

private theorem step_p (F : Phys n P) (f : Form n P) (c : Call n P) (h : List (Call n P)) :
    lastParams f.p (c :: h) = lastParams (step F f c).p h := by
  cases c with
  | setInputs p => rfl
  | evaluate u =>
    simp only [step, Form.evaluate, lastParams]
    split_ifs
    · rfl
    · split <;> rfl
  | getJacobian u => rfl
  | getJacobianTranspose =>
    simp only [step, Form.getJacobianTranspose, lastParams]
    split
    · rfl
    · split <;> rfl
  | linearize p u =>
    simp only [step, Form.linearize, Form.setInputs, Form.getJacobian, lastParams]
    congr 1
    split <;> split <;> rfl
  | jvp w r => simp only [step, Form.jvpState, lastParams]; split <;> rfl
  | vjp r w => simp only [step, Form.vjpState, lastParams]; split <;> rfl
  | setUpAdjoint s a =>
    simp only [step, Form.setUpAdjoint, Form.getJacobianTranspose, lastParams]
    cases f.jacT with
    | some T => simp only; split_ifs <;> rfl
    | none =>
      cases f.jac with
      | some A => simp only; split_ifs <;> rfl
      | none => rfl
  | finalizeAdjoint a => rfl

private theorem run_keep (F : Phys n P) : ∀ (h : List (Call n P)) (f : Form n P),
    (run F f h).ess = f.ess ∧ (run F f h).bc = f.bc ∧ (run F f h).p = lastParams f.p h := by
  intro h
  induction h with
  | nil => intro f; exact ⟨rfl, rfl, rfl⟩
  | cons c h ih =>
    intro f
    obtain ⟨e1, e2, e3⟩ := ih (step F f c)
    obtain ⟨k1, k2⟩ := step_keep F f c
    exact ⟨e1.trans k1, e2.trans k2, e3.trans (step_p F f c h).symm⟩

/-- **C36** After *any* history of calls, evaluating returns the residual of the specification for the parameters set last: the assembled residual on free dofs, and on essential dofs
the mismatch with the registered boundary values (0 if none are registered). -/
theorem C36_evaluate_after_any_history (F : Phys n P) (ess : Finset (Fin n)) (bc : Option (Vec n)) (p : P)
    (h : List (Call n P)) (u : Vec n) :
    ((run F (fresh ess bc p) h).evaluate F u).2 = residual F ess bc (lastParams p h) u := by
  obtain ⟨e1, e2, e3⟩ := run_keep F h (fresh ess bc p)
  rw [evaluate_eq, e1, e2, e3]
  rfl

/-- **C36** In particular, without registered boundary values the essential entries are zero. -/
theorem C36_zero_at_essential (F : Phys n P) (ess : Finset (Fin n)) (p : P) (h : List (Call n P)) (u : Vec n) (i : Fin n) :
    (i ∈ ess → ((run F (fresh ess none p) h).evaluate F u).2 i = 0) ∧
    (i ∉ ess → ((run F (fresh ess none p) h).evaluate F u).2 i = F.R (lastParams p h) u i) := by
  rw [C36_evaluate_after_any_history]
  exact ⟨fun hi => by simp [residual, hi], fun hi => by simp [residual, hi]⟩

/-! ### C37 -/

/-- The forward and reverse products that the stored Jacobian blocks implement, in terms of the assembled gradient `A`. -/
theorem jvp_eq (ess : Finset (Fin n)) (A : Mat n) (w : Vec n) :
    elim ess A *ᵥ zeroEss ess w + elimE ess A *ᵥ w = zeroEss ess (A *ᵥ w) := by
  funext i
  simp only [Pi.add_apply, mulVec, dotProduct, zeroEss]
  by_cases hi : i ∈ ess
  · simp only [elimE, hi, if_true, zero_mul, Finset.sum_const_zero, add_zero, elim, true_or]
    refine Finset.sum_eq_zero fun j _ => ?_
    by_cases hij : i = j
    · subst hij; simp [hi]
    · simp [hij]
  · simp only [elimE, hi, if_false, elim, false_or]
    rw [← Finset.sum_add_distrib]
    refine Finset.sum_congr rfl fun j _ => ?_
    by_cases hj : j ∈ ess
    · have hij : i ≠ j := fun e => hi (e ▸ hj)
      simp [hj, hij]
    · simp [hj]

theorem vjp_eq (ess : Finset (Fin n)) (A : Mat n) (r : Vec n) :
    (elim ess A)ᵀ *ᵥ zeroEss ess r + (elimE ess A)ᵀ *ᵥ r = Aᵀ *ᵥ zeroEss ess r := by
  funext j
  simp only [Pi.add_apply, mulVec, dotProduct, zeroEss, transpose_apply]
  rw [← Finset.sum_add_distrib]
  refine Finset.sum_congr rfl fun i _ => ?_
  by_cases hi : i ∈ ess
  · simp [elimE, hi]
  · by_cases hj : j ∈ ess
    · have hij : i ≠ j := fun e => hi (e ▸ hj)
      simp [elimE, elim, hi, hj, hij]
    · simp [elimE, elim, hi, hj]

theorem zeroEss_dot (ess : Finset (Fin n)) (r v : Vec n) : r ⬝ᵥ zeroEss ess v = zeroEss ess r ⬝ᵥ v := by
  simp only [dotProduct, zeroEss]
  exact Finset.sum_congr rfl fun i _ => by by_cases hi : i ∈ ess <;> simp [hi]

/-- Whatever is stored came from some gradient matrix. -/
private def Good (f : Form n P) : Prop :=
  (f.jac = none ∧ f.jacE = none ∧ f.jacT = none) ∨
  ∃ A, f.jac = some (elim f.ess A) ∧ f.jacE = some (elimE f.ess A) ∧ (f.jacT = none ∨ f.jacT = some (elim f.ess A)ᵀ)

private theorem step_jac (F : Phys n P) (f : Form n P) (c : Call n P) (hg : Good f) : Good (step F f c) := by
  cases c with
  | setInputs p => exact hg
  | evaluate u =>
    simp only [step, Form.evaluate]
    split_ifs
    · exact hg
    · split <;> exact hg
  | getJacobian u => exact Or.inr ⟨_, rfl, rfl, Or.inl rfl⟩
  | getJacobianTranspose =>
    rcases hg with ⟨h1, h2, h3⟩ | ⟨A, h1, h2, h3⟩
    · left; simp [step, Form.getJacobianTranspose, h1, h2, h3]
    · right
      refine ⟨A, ?_⟩
      rcases h3 with h3 | h3 <;> simp [step, Form.getJacobianTranspose, h1, h2, h3]
  | linearize p u =>
    rcases hg with ⟨h1, h2, h3⟩ | ⟨A, h1, h2, h3⟩
    · right
      refine ⟨F.J p u, ?_⟩
      simp [step, Form.linearize, Form.setInputs, Form.getJacobian, h1]
    · right
      refine ⟨A, ?_⟩
      rcases h3 with h3 | h3 <;> simp [step, Form.linearize, Form.setInputs, h1, h2, h3]
  | jvp w r => simp only [step, Form.jvpState]; split <;> exact hg
  | vjp r w => simp only [step, Form.vjpState]; split <;> exact hg
  | setUpAdjoint s a =>
    rcases hg with ⟨h1, h2, h3⟩ | ⟨A, h1, h2, h3⟩
    · left; simp [step, Form.setUpAdjoint, Form.getJacobianTranspose, h1, h2, h3]
    · right
      refine ⟨A, ?_⟩
      rcases h3 with h3 | h3 <;> simp only [step, Form.setUpAdjoint, Form.getJacobianTranspose, h1, h3] <;>
        split_ifs <;> simp [h1, h2, h3]
  | finalizeAdjoint a => exact hg

private theorem run_good (F : Phys n P) : ∀ (h : List (Call n P)) (f : Form n P), Good f → Good (run F f h) := by
  intro h
  induction h with
  | nil => intro f hf; exact hf
  | cons c h ih => intro f hf; exact ih _ (step_jac F f c hf)

/-- **C37 (state)** After any history of calls, the forward and reverse state products either both throw (no Jacobian was ever assembled) or both accumulate, and what they add satisfies
`res_bar · JVP(w) = VJP(res_bar) · w` for all seeds. -/
theorem C37_state_products_adjoint (F : Phys n P) (ess : Finset (Fin n)) (bc : Option (Vec n)) (p : P) (h : List (Call n P)) :
    let f := run F (fresh ess bc p) h
    (∀ w r, f.jvpState w r = none ∧ f.vjpState r w = none) ∨
    ∃ jvp vjp : Vec n → Vec n,
      (∀ w r, (f.jvpState w r).map Prod.snd = some (r + jvp w)) ∧
      (∀ r w, (f.vjpState r w).map Prod.snd = some (w + vjp r)) ∧
      ∀ r w, r ⬝ᵥ jvp w = vjp r ⬝ᵥ w := by
  intro f
  rcases run_good F h (fresh ess bc p) (Or.inl ⟨rfl, rfl, rfl⟩) with ⟨h1, h2, _⟩ | ⟨A, h1, h2, _⟩
  · left; intro w r; simp [Form.jvpState, Form.vjpState, f, h1, h2]
  · right
    refine ⟨fun w => zeroEss f.ess (A *ᵥ w), fun r => Aᵀ *ᵥ zeroEss f.ess r, ?_, ?_, ?_⟩
    · intro w r
      simp only [Form.jvpState, f, h1, h2, Option.map_some]
      rw [add_assoc, jvp_eq]
    · intro r w
      simp only [Form.vjpState, f, h1, h2, Option.map_some]
      rw [add_assoc, vjp_eq]
    · intro r w
      simp only
      rw [zeroEss_dot, dotProduct_mulVec, ← mulVec_transpose]

private theorem hasDerivAt_zeroEss (ess : Finset (Fin n)) (G : ℝ → Vec n) (G' : Vec n) (h : HasDerivAt G G' 0) :
    HasDerivAt (fun t => zeroEss ess (G t)) (zeroEss ess G') 0 := by
  rw [hasDerivAt_pi] at h ⊢
  intro i
  unfold zeroEss
  by_cases hi : i ∈ ess
  · simp only [hi, if_true]; exact hasDerivAt_const _ _
  · simp only [hi, if_false]; exact h i

/-- **C37 (partial: no registered boundary values)** Right after `getJacobian` at the current parameters and state the forward product is the exact derivative of `evaluate`. -/
theorem C37_jvp_exact_partial (F : Phys n P) (hJ : ∀ p u, IsDeriv (F.R p) u (fun v => F.J p u *ᵥ v))
    (f : Form n P) (hbc : f.bc = none) (u : Vec n) :
    ∃ jvp : Vec n → Vec n, (∀ w r, ((f.getJacobian F u).jvpState w r).map Prod.snd = some (r + jvp w)) ∧
      IsDeriv (fun u => (f.evaluate F u).2) u jvp := by
  refine ⟨fun w => zeroEss f.ess (F.J f.p u *ᵥ w), ?_, ?_⟩
  · intro w r
    simp only [Form.getJacobian, Form.jvpState, Option.map_some]
    rw [add_assoc, jvp_eq]
  · intro v
    have := hasDerivAt_zeroEss f.ess _ _ (hJ f.p u v)
    refine this.congr_of_eventuallyEq (Filter.Eventually.of_forall fun t => ?_)
    simp only
    rw [evaluate_eq, hbc]
    rfl

/-- **C37 (violated with registered boundary values)** With a `dirichlet_bc` field the residual is `u - bc` on essential dofs, with derivative 1 there, but the forward product returns 0. -/
theorem C37_false_dirichlet_rows :
    ∃ (F : Phys 1 Unit) (f : Form 1 Unit) (u w : Vec 1), IsDeriv (F.R ()) u (fun v => F.J () u *ᵥ v) ∧
      ((f.getJacobian F u).jvpState w 0).map Prod.snd = some 0 ∧
      HasDerivAt (fun t : ℝ => (f.evaluate F (u + t • w)).2) (1 : Vec 1) 0 := by
  refine ⟨⟨fun _ _ => 0, fun _ _ => 0⟩, fresh {0} (some 0) (), 0, 1, ?_, ?_, ?_⟩
  · intro v; simpa using hasDerivAt_const (0 : ℝ) (0 : Vec 1)
  · simp only [Form.getJacobian, Form.jvpState, Option.map_some]
    rw [add_assoc, jvp_eq]
    congr 1
    funext i
    simp [zeroEss]
  · rw [hasDerivAt_pi]
    intro i
    have hi : i = 0 := Subsingleton.elim _ _
    subst hi
    have : (fun t : ℝ => (Form.evaluate (⟨fun _ _ => 0, fun _ _ => 0⟩ : Phys 1 Unit) (fresh {0} (some 0) ()) (0 + t • 1)).2 0) = fun t => t := by
      funext t
      rw [evaluate_eq]
      simp [residual, fresh]
    rw [this]
    exact hasDerivAt_id _

/-- **C37 (fields)** The reverse product with respect to a field adds the transpose of the derivative of the constrained residual (no registered boundary values). -/
theorem C37_field_reverse {m : ℕ} (f : Form n P) (G : Matrix (Fin n) (Fin m) ℝ) (r : Vec n) (w wb : Fin m → ℝ) :
    f.vjpField G r wb ⬝ᵥ w = wb ⬝ᵥ w + r ⬝ᵥ zeroEss f.ess (G *ᵥ w) := by
  unfold Form.vjpField
  rw [add_dotProduct, zeroEss_dot, dotProduct_mulVec, ← mulVec_transpose]

/-- **C37 (violated for scalars)** The reverse product with respect to a scalar does not zero the seed on essential dofs: for any seed that is nonzero on one, some residual derivative gives a wrong value.
The correct value is `r · zeroEss g`. -/
theorem C37_false_scalar_reverse (f : Form n P) (r : Vec n) (i : Fin n) (hi : i ∈ f.ess) (hr : r i ≠ 0) :
    ∃ g : Vec n, f.vjpScalar g r ≠ r ⬝ᵥ zeroEss f.ess g := by
  refine ⟨Pi.single i 1, ?_⟩
  have : zeroEss f.ess (Pi.single i (1 : ℝ)) = 0 := by
    funext j
    unfold zeroEss
    by_cases hj : j = i
    · subst hj; simp [hi]
    · simp [hj]
  unfold Form.vjpScalar
  rw [this]
  simpa using hr

/-- **C37 (partial, scalars)** It is correct for seeds vanishing on essential dofs. -/
theorem C37_scalar_reverse_partial (f : Form n P) (g r : Vec n) (hr : ∀ i ∈ f.ess, r i = 0) :
    f.vjpScalar g r = r ⬝ᵥ zeroEss f.ess g := by
  have : zeroEss f.ess r = r := by
    funext i
    unfold zeroEss
    by_cases hi : i ∈ f.ess
    · simp [hi, hr i hi]
    · simp [hi]
  rw [zeroEss_dot, this]; rfl

/-! ### C38 -/

/-- The forward product adds `zeroEss (A w)`: it uses the gradient `A`. -/
def Uses (f : Form n P) (A : Mat n) : Prop :=
  ∀ w r, (f.jvpState w r).map Prod.snd = some (r + zeroEss f.ess (A *ᵥ w))

/-- **C38 (partial)** On a form with no Jacobian yet, `linearize` makes products use the Jacobian at its inputs; a `getJacobian` call always does so. -/
theorem C38_linearize_fresh_partial (F : Phys n P) (ess : Finset (Fin n)) (bc : Option (Vec n)) (p q : P) (u : Vec n) (f : Form n P) :
    Uses ((fresh ess bc p).linearize F q u) (F.J q u) ∧ Uses ((f.setInputs q).getJacobian F u) (F.J q u) := by
  constructor
  · intro w r
    simp only [Form.linearize, fresh, Form.setInputs, Form.getJacobian, Form.jvpState, Option.map_some]
    rw [add_assoc, jvp_eq]
  · intro w r
    simp only [Form.setInputs, Form.getJacobian, Form.jvpState, Option.map_some]
    rw [add_assoc, jvp_eq]

/-- **C38 (violated)** On any form that already holds a Jacobian — assembled at whatever inputs — `linearize` at new inputs keeps using the old one. -/
theorem C38_false_linearize_stale (F : Phys n P) (f : Form n P) (u0 : Vec n) (q : P) (u : Vec n) :
    Uses ((f.getJacobian F u0).linearize F q u) (F.J f.p u0) := by
  intro w r
  simp only [Form.linearize, Form.setInputs, Form.getJacobian, Form.jvpState, Option.map_some]
  rw [add_assoc, jvp_eq]

/-- A concrete instance: `R(u) = u²`, Jacobian assembled at 1, linearised at 2: products still use `2·1` instead of `2·2`. -/
example : ∃ (F : Phys 1 Unit) (f : Form 1 Unit), Uses ((f.getJacobian F 1).linearize F () (fun _ => 2)) (fun _ _ => 2) ∧
    F.J () (fun _ => 2) = fun _ _ => 4 := by
  refine ⟨⟨fun _ u i => u i ^ 2, fun _ u i _ => 2 * u i⟩, fresh ∅ none (), ?_, ?_⟩
  · have := C38_false_linearize_stale (⟨fun _ u i => u i ^ 2, fun _ u i _ => 2 * u i⟩ : Phys 1 Unit) (fresh ∅ none ()) 1 () (fun _ => 2)
    simpa using this
  · funext i j; norm_num

/-! ### C39 -/

/-- The solver solves `T x = b` exactly. -/
def Solves (T : Mat n) (b x : Vec n) : Prop := T *ᵥ x = b

theorem elimT_solve (ess : Finset (Fin n)) (A : Mat n) (s x : Vec n) (h : (elim ess A)ᵀ *ᵥ x = zeroEss ess s) :
    (∀ i ∈ ess, x i = 0) ∧ ∀ j ∉ ess, (Aᵀ *ᵥ x) j = s j := by
  have he : ∀ j, ((elim ess A)ᵀ *ᵥ x) j = ∑ i, elim ess A i j * x i := fun j => rfl
  have h0 : ∀ i ∈ ess, x i = 0 := by
    intro i hi
    have := congrFun h i
    rw [he] at this
    simp only [elim, hi, or_true, if_true, zeroEss] at this
    simpa using this
  refine ⟨h0, fun j hj => ?_⟩
  have := congrFun h j
  rw [he] at this
  simp only [zeroEss, hj, if_false] at this
  rw [← this]
  simp only [mulVec, dotProduct, transpose_apply]
  refine Finset.sum_congr rfl fun i _ => ?_
  by_cases hi : i ∈ ess
  · simp [h0 i hi]
  · simp [elim, hi, hj]

/-- **C39** After `getJacobian` and `setUpAdjointSystem`, an exact solve with the operator and right-hand side handed to the solver yields an adjoint that is zero on essential dofs and satisfies `(Jᵀψ)_j = state_bar_j` on free dofs,
whatever initial adjoint guess and scratch contents. -/
theorem C39_adjoint_on_free_dofs (F : Phys n P) (f : Form n P) (u sbar adj0 : Vec n) :
    ∃ g T b a, (f.getJacobian F u).setUpAdjoint sbar adj0 = some (g, T, b, a) ∧
      ∀ psi, Solves T b psi → (∀ i ∈ f.ess, psi i = 0) ∧ ∀ j ∉ f.ess, ((F.J f.p u)ᵀ *ᵥ psi) j = sbar j := by
  by_cases he : f.ess = ∅
  · refine ⟨_, _, _, _, by simp only [Form.setUpAdjoint, Form.getJacobian, Form.getJacobianTranspose, if_pos he]; rfl, ?_⟩
    intro psi hs
    refine elimT_solve f.ess _ sbar psi ?_
    have : zeroEss f.ess sbar = sbar := by funext i; simp [zeroEss, he]
    rw [this]; exact hs
  · refine ⟨_, _, _, _, by simp only [Form.setUpAdjoint, Form.getJacobian, Form.getJacobianTranspose, if_neg he]; rfl, ?_⟩
    intro psi hs
    exact elimT_solve f.ess _ sbar psi hs

/-- **C39** Followed by `finalizeAdjointSystem` (under non-aliased arithmetic) the *negative* of the result solves the full adjoint system of the residual `[R_free ; u_ess - bc]`: `Jᵀψ` on free rows plus `ψ` itself on essential rows equals the original `state_bar`. -/
theorem C39_finalized_adjoint (F : Phys n P) (f : Form n P) (hne : f.ess ≠ ∅) (u sbar adj0 psi : Vec n) {g : Form n P} {T : Mat n} {b a : Vec n}
    (h : (f.getJacobian F u).setUpAdjoint sbar adj0 = some (g, T, b, a)) (hs : Solves T b psi) :
    ∃ out, g.finalizeAdjoint psi = some out ∧
      let ψ : Vec n := fun i => -out i
      (∀ j ∉ f.ess, ∑ i, (if i ∈ f.ess then 0 else F.J f.p u i j) * ψ i = sbar j) ∧
      (∀ j ∈ f.ess, ψ j + ∑ i, (if i ∈ f.ess then 0 else F.J f.p u i j) * ψ i = sbar j) := by
  simp only [Form.setUpAdjoint, Form.getJacobian, Form.getJacobianTranspose, if_neg hne, Option.some.injEq, Prod.mk.injEq] at h
  obtain ⟨rfl, rfl, rfl, rfl⟩ := h
  obtain ⟨h0, h1⟩ := elimT_solve f.ess _ sbar psi hs
  simp only [Form.finalizeAdjoint, if_neg hne]
  refine ⟨_, rfl, ?_⟩
  set A := F.J f.p u with hA
  set adj : Vec n := fun i => if i ∈ f.ess then sbar i else psi i with hadj
  have hEt : ∀ j, ((elimE f.ess A)ᵀ *ᵥ adj) j = if j ∈ f.ess then ∑ i, (if i ∈ f.ess then 0 else A i j) * psi i else 0 := by
    intro j
    simp only [mulVec, dotProduct, transpose_apply]
    by_cases hj : j ∈ f.ess
    · rw [if_pos hj]
      refine Finset.sum_congr rfl fun i _ => ?_
      by_cases hi : i ∈ f.ess
      · simp [elimE, hi]
      · have hij : i ≠ j := fun e => hi (e ▸ hj)
        simp [elimE, elim, hi, hj, hij, hadj]
    · rw [if_neg hj]
      refine Finset.sum_eq_zero fun i _ => ?_
      by_cases hi : i ∈ f.ess
      · simp [elimE, hi]
      · simp [elimE, elim, hi, hj]
  have hfree : ∀ i ∉ f.ess, -((elimE f.ess A)ᵀ *ᵥ adj - adj) i = psi i := by
    intro i hi
    rw [Pi.sub_apply, hEt, if_neg hi, hadj]
    simp [hi]
  have hsum : ∀ j, ∑ i, (if i ∈ f.ess then 0 else A i j) * -((elimE f.ess A)ᵀ *ᵥ adj - adj) i
      = ∑ i, (if i ∈ f.ess then 0 else A i j) * psi i := by
    intro j
    refine Finset.sum_congr rfl fun i _ => ?_
    by_cases hi : i ∈ f.ess
    · simp [hi]
    · rw [hfree i hi]
  refine ⟨fun j hj => ?_, fun j hj => ?_⟩
  · rw [hsum, ← h1 j hj]
    simp only [mulVec, dotProduct, transpose_apply]
    refine Finset.sum_congr rfl fun i _ => ?_
    by_cases hi : i ∈ f.ess
    · simp [hi, h0 i hi]
    · simp [hi]
  · rw [hsum, Pi.sub_apply, hEt, if_pos hj]
    simp [hadj, hj]

/-- **C39 (hazard)** Setting up the adjoint system before any Jacobian was assembled throws, and after a history the operator is that of the Jacobian assembled last, not of the inputs passed. -/
theorem C39_false_uses_stored_jacobian (F : Phys n P) (f : Form n P) (u0 : Vec n) (q : P) (sbar adj0 : Vec n) :
    (fresh f.ess f.bc f.p).setUpAdjoint sbar adj0 = none ∧
    (((f.getJacobian F u0).setInputs q).setUpAdjoint sbar adj0).map (fun r => r.2.1) = some (elim f.ess (F.J f.p u0))ᵀ := by
  constructor
  · simp [Form.setUpAdjoint, fresh, Form.getJacobianTranspose]
  · simp only [Form.setUpAdjoint, Form.getJacobian, Form.setInputs, Form.getJacobianTranspose]
    split_ifs <;> rfl

/-! ### C40 -/

/-- Specification: adding `c` restricted to `attrs` on cells of the given kind adds its contribution on exactly those cells. -/
def restrictedSum {E : Type} (dom : Bool) (attrs : List ℤ) (c : E → ℝ) (cells : List (Bool × ℕ × E)) : ℝ :=
  ((cells.filter fun x => x.1 == dom && decide ((x.2.1 : ℤ) ∈ attrs)).map fun x => c x.2.2).sum

private theorem assemble_append {E : Type} (is : List (Integ E)) (i : Integ E) (cells : List (Bool × ℕ × E)) :
    assemble (is ++ [i]) cells = assemble is cells +
      (cells.map fun c => if applies i c.1 c.2.1 then i.contrib c.2.2 else 0).sum := by
  unfold assemble
  induction cells with
  | nil => simp
  | cons c cs ih =>
    simp only [List.map_cons, List.sum_cons]
    rw [ih, List.filter_append, List.map_append, List.sum_append]
    by_cases h : applies i c.1 c.2.1 <;> simp [h] <;> ring

private theorem sum_ite_filter {X : Type} (p : X → Bool) (g : X → ℝ) (l : List X) :
    (l.map fun x => if p x then g x else 0).sum = ((l.filter p).map g).sum := by
  induction l with
  | nil => rfl
  | cons x xs ih => by_cases h : p x <;> simp [h, ih]

/-- **C40 (boundary)** A boundary integrator added with an attribute list (attributes in range) contributes on exactly the boundary elements with those attributes. -/
theorem C40_boundary_restricted {E : Type} (bdrMax : ℕ) (is : List (Integ E)) (c : E → ℝ) (attrs : List ℤ)
    (hattr : ∀ a ∈ attrs, 1 ≤ a ∧ a ≤ bdrMax) (cells : List (Bool × ℕ × E))
    (hcells : ∀ x ∈ cells, x.1 = false → 1 ≤ x.2.1 ∧ x.2.1 ≤ bdrMax) :
    ∃ is', addBdrAttrs bdrMax is c attrs = some is' ∧
      assemble is' cells = assemble is cells + restrictedSum false attrs c cells := by
  have hm := Boundary.C27_list_marks_exactly attrs (List.replicate bdrMax 0) (by simpa using hattr)
  have hb : Boundary.attrVecToArray attrs (List.replicate bdrMax 0) = .ok (Boundary.marker bdrMax fun i => i ∈ attrs) := by
    rw [← List.length_replicate (n := bdrMax) (a := (0 : ℤ)), ← hm]
    simp only [Boundary.getMFEMBoundaryArray]
    have : (attrs.map some).mapM id = some attrs := by
      clear hm hattr
      induction attrs with
      | nil => rfl
      | cons x xs ih => simp [ih]
    rw [this]
    simp
  refine ⟨is ++ [⟨false, some (Boundary.marker bdrMax fun i => i ∈ attrs), c⟩], by simp [addBdrAttrs, hb], ?_⟩
  rw [assemble_append, restrictedSum]
  congr 1
  rw [sum_ite_filter]
  congr 2
  refine List.filter_congr fun x hx => ?_
  unfold applies
  rcases hxk : x.1 with _ | _
  · obtain ⟨h1, h2⟩ := hcells x hx hxk
    simp only [beq_self_eq_true, Bool.true_and]
    have hlt : x.2.1 - 1 < bdrMax := by omega
    rw [List.getD_eq_getElem?_getD, List.getElem?_eq_getElem (by simpa [Boundary.marker] using hlt), Option.getD_some]
    have e : ((x.2.1 - 1 : ℕ) : ℤ) + 1 = x.2.1 := by omega
    by_cases hin : (x.2.1 : ℤ) ∈ attrs
    · simp [Boundary.marker, e, hin]
    · simp [Boundary.marker, e, hin]
  · simp

/-- **C40 (violated for domain integrators)** A domain integrator added with an attribute list contributes on *all* domain elements. -/
theorem C40_false_domain_unrestricted {E : Type} (bdrMax : ℕ) (is : List (Integ E)) (c : E → ℝ) (attrs : List ℤ) {is' : List (Integ E)}
    (h : addDomainAttrs bdrMax is c attrs = some is') : is' = addDomain is c := by
  unfold addDomainAttrs at h
  split at h
  · simp only [Option.some.injEq] at h; exact h.symm
  · simp at h

/-- A concrete violation: one integrator with value 1 restricted to attribute 1 on a mesh with elements of attributes 1 and 2 assembles 2 instead of 1; and an attribute larger than the largest *boundary* attribute is an out-of-bounds write. -/
theorem C40_false_witness :
    (∃ is', addDomainAttrs 2 ([] : List (Integ Unit)) (fun _ => 1) [1] = some is' ∧
      assemble is' [(true, 1, ()), (true, 2, ())] = 2 ∧ restrictedSum true [1] (fun _ => (1 : ℝ)) [(true, 1, ()), (true, 2, ())] = 1) ∧
    addDomainAttrs 2 ([] : List (Integ Unit)) (fun _ => 1) [3] = none := by
  refine ⟨⟨addDomain [] fun _ => 1, ?_, ?_, ?_⟩, ?_⟩
  · have : Boundary.attrVecToArray [1] (List.replicate 2 0) = .ok [1, 0] := by decide
    unfold addDomainAttrs
    rw [this]
    rfl
  · simp [assemble, addDomain, applies]; norm_num
  · simp [restrictedSum]
  · have : Boundary.attrVecToArray [3] (List.replicate 2 0) = .ub := by decide
    unfold addDomainAttrs
    rw [this]

end Verif.NLForm
