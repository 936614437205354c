import Mathlib.Analysis.Calculus.FDeriv.Basic
import Mathlib.Analysis.Calculus.FDeriv.Add
import Mathlib.Analysis.Calculus.FDeriv.Mul
import Mathlib.Analysis.Calculus.Deriv.Basic
import Mathlib.Analysis.Calculus.Deriv.Add
import Mathlib.Analysis.Calculus.Deriv.Mul
import Mathlib.Analysis.Calculus.Deriv.Pow
import Mathlib.Tactic.Module
import Mathlib.Tactic.FinCases
import Verif.CoefficientsProps

/-!
# Derivatives of coefficients: C64, C80, C81
-/

set_option linter.dupNamespace false
set_option linter.unusedSectionVars false

namespace Verif.Coefficients

open Verif.Inputs (Inputs Input Out setValueFromInputs setValueFromInput)

/-! ## State derivatives (C80, C64) -/

section StateDeriv
variable {IP X D : Type}

mutual
/-- Every user supplied `StateCoefficient` in the tree has an exact state derivative. -/
def Coeff.DerivOk : Coeff ℝ IP X D → Prop
  | .plain _ _ => True
  | .state f fd _ _ => ∀ l x s, HasDerivAt (fun r => f l x r) (fd l x s) s
  | .hs _ _ _ _ => True
  | .dhs _ _ _ _ => True
  | .avg _ _ _ _ => True
  | .davg _ _ _ _ => True
  | .contin _ nonlin => nonlin.DerivOk
  | .mesh m d => m.DerivOk ∧ d.DerivOk
def CMap.DerivOk : CMap ℝ IP X D → Prop
  | .nil => True
  | .cons _ c rest => c.DerivOk ∧ rest.DerivOk
def COpt.DerivOk : COpt ℝ IP X D → Prop
  | .none => True
  | .some c => c.DerivOk
end

mutual
/-- C80: for every nesting of mesh dependent, continuation, weighted and user coefficients whose
user supplied leaves report exact derivatives, `EvalStateDeriv` is the derivative of `Eval` with
respect to the state. -/
theorem C80_state_derivative_exact (lam : ℝ) (l : Loc IP) (x : X) (s : ℝ) (c : Coeff ℝ IP X D)
    (h : c.DerivOk) : HasDerivAt (fun r => c.evalS lam l x r) (c.deriv lam l x s) s := by
  match c with
  | .plain f _ => simpa only [Coeff.evalS, Coeff.deriv] using hasDerivAt_const s (f l x)
  | .state f fd _ _ => exact h l x s
  | .hs a b w _ => simpa only [Coeff.evalS, Coeff.deriv] using hasDerivAt_const s _
  | .dhs a b w _ => simpa only [Coeff.evalS, Coeff.deriv] using hasDerivAt_const s _
  | .avg a b w _ => simpa only [Coeff.evalS, Coeff.deriv] using hasDerivAt_const s _
  | .davg a b w _ => simpa only [Coeff.evalS, Coeff.deriv] using hasDerivAt_const s _
  | .contin lin nonlin =>
    simp only [Coeff.evalS, Coeff.deriv]
    exact ((C80_state_derivative_exact lam l x s nonlin h).const_mul lam).const_add _
  | .mesh m d =>
    simp only [Coeff.evalS, Coeff.deriv]
    exact cmap_deriv_exact lam l x s m h.1 _ _ (copt_deriv_exact lam l x s d h.2)
theorem cmap_deriv_exact (lam : ℝ) (l : Loc IP) (x : X) (s : ℝ) (m : CMap ℝ IP X D)
    (h : m.DerivOk) (e : ℝ → ℝ) (e' : ℝ) (he : HasDerivAt e e' s) :
    HasDerivAt (fun r => m.evalS lam l x r (e r)) (m.deriv lam l x s e') s := by
  match m with
  | .nil => exact he
  | .cons b c rest =>
    simp only [CMap.evalS, CMap.deriv]
    by_cases hb : l.attr = b
    · simp only [if_pos hb]; exact C80_state_derivative_exact lam l x s c h.1
    · simp only [if_neg hb]; exact cmap_deriv_exact lam l x s rest h.2 e e' he
theorem copt_deriv_exact (lam : ℝ) (l : Loc IP) (x : X) (s : ℝ) (d : COpt ℝ IP X D)
    (h : d.DerivOk) : HasDerivAt (fun r => d.evalS lam l x r) (d.deriv lam l x s) s := by
  match d with
  | .none => simpa only [COpt.evalS, COpt.deriv] using hasDerivAt_const s _
  | .some c => exact C80_state_derivative_exact lam l x s c h
end

mutual
/-- Every user supplied `StateCoefficient` has an exact second derivative, and no
`ParameterContinuationCoefficient` occurs. -/
def Coeff.Deriv2Ok : Coeff ℝ IP X D → Prop
  | .state _ fd fdd _ => ∀ l x s, HasDerivAt (fun r => fd l x r) (fdd l x s) s
  | .contin _ _ => False
  | .mesh m d => m.Deriv2Ok ∧ d.Deriv2Ok
  | _ => True
def CMap.Deriv2Ok : CMap ℝ IP X D → Prop
  | .nil => True
  | .cons _ c rest => c.Deriv2Ok ∧ rest.Deriv2Ok
def COpt.Deriv2Ok : COpt ℝ IP X D → Prop
  | .none => True
  | .some c => c.Deriv2Ok
end

mutual
/-- C80: second state derivatives are exact for every nesting *without* a continuation
coefficient.  Partial: with one the claim is false (next theorem). -/
theorem C80_second_state_derivative_partial (lam : ℝ) (l : Loc IP) (x : X) (s : ℝ)
    (c : Coeff ℝ IP X D) (h : c.Deriv2Ok) :
    HasDerivAt (fun r => c.deriv lam l x r) (c.deriv2 l x s) s := by
  match c with
  | .plain f _ => simpa only [Coeff.deriv2, Coeff.deriv] using hasDerivAt_const s _
  | .state f fd _ _ => exact h l x s
  | .hs a b w _ => simpa only [Coeff.deriv2, Coeff.deriv] using hasDerivAt_const s _
  | .dhs a b w _ => simpa only [Coeff.deriv2, Coeff.deriv] using hasDerivAt_const s _
  | .avg a b w _ => simpa only [Coeff.deriv2, Coeff.deriv] using hasDerivAt_const s _
  | .davg a b w _ => simpa only [Coeff.deriv2, Coeff.deriv] using hasDerivAt_const s _
  | .contin lin nonlin => exact absurd h (by simp [Coeff.Deriv2Ok])
  | .mesh m d =>
    simp only [Coeff.deriv2, Coeff.deriv]
    exact cmap_deriv2_exact lam l x s m h.1 _ _ (copt_deriv2_exact lam l x s d h.2)
theorem cmap_deriv2_exact (lam : ℝ) (l : Loc IP) (x : X) (s : ℝ) (m : CMap ℝ IP X D)
    (h : m.Deriv2Ok) (e : ℝ → ℝ) (e' : ℝ) (he : HasDerivAt e e' s) :
    HasDerivAt (fun r => m.deriv lam l x r (e r)) (m.deriv2 l x s e') s := by
  match m with
  | .nil => exact he
  | .cons b c rest =>
    simp only [CMap.deriv2, CMap.deriv]
    by_cases hb : l.attr = b
    · simp only [if_pos hb]; exact C80_second_state_derivative_partial lam l x s c h.1
    · simp only [if_neg hb]; exact cmap_deriv2_exact lam l x s rest h.2 e e' he
theorem copt_deriv2_exact (lam : ℝ) (l : Loc IP) (x : X) (s : ℝ) (d : COpt ℝ IP X D)
    (h : d.Deriv2Ok) : HasDerivAt (fun r => d.deriv lam l x r) (d.deriv2 l x s) s := by
  match d with
  | .none => simpa only [COpt.deriv2, COpt.deriv] using hasDerivAt_const s _
  | .some c => exact C80_second_state_derivative_partial lam l x s c h
end

/-- The user coefficient `state²` with exact derivatives. -/
def squareCoeff : Coeff ℝ Unit Unit Unit :=
  .state (fun _ _ s => s ^ 2) (fun _ _ s => 2 * s) (fun _ _ _ => 2) (fun _ _ _ _ G => some G)

theorem squareCoeff_ok : squareCoeff.DerivOk ∧ squareCoeff.Deriv2Ok := by
  constructor
  · intro l x s
    simpa using hasDerivAt_pow 2 s
  · intro l x s
    simpa using (hasDerivAt_id s).const_mul 2

/-- C80: the second derivative reported by a continuation coefficient is wrong: 0 although the
coefficient is `λ·state²`. -/
theorem C80_false_second_derivative_continuation :
    ∃ (c : Coeff ℝ Unit Unit Unit) (lam s : ℝ) (l : Loc Unit), c.DerivOk ∧
      HasDerivAt (fun r => c.deriv lam l () r) 2 s ∧ c.deriv2 l () s = 0 := by
  refine ⟨.contin (.plain (fun _ _ => 1) (fun _ _ _ G => some G)) squareCoeff, 1, 3, ⟨1, ()⟩,
    squareCoeff_ok.1, ?_, rfl⟩
  simp only [Coeff.deriv, squareCoeff]
  simpa using ((hasDerivAt_id (3 : ℝ)).const_mul 2)

/-- Non-vacuity of C80: a mesh coefficient holding a continuation and a plain one. -/
example : (Coeff.mesh (.cons 1 (.contin (.plain (fun _ _ => 1) (fun _ _ _ G => some G)) squareCoeff)
      (.cons 2 (.hs 2 1 0 "f") .nil)) (.some squareCoeff) : Coeff ℝ Unit Unit Unit).DerivOk :=
  ⟨⟨squareCoeff_ok.1, trivial, trivial⟩, squareCoeff_ok.1⟩

variable {ι : Type}

mutual
/-- Every user supplied leaf of a vector coefficient has an exact state derivative. -/
def VCoeff.DerivOk : VCoeff ℝ IP X D ι → Prop
  | .plain _ _ => True
  | .state f fd _ => ∀ l x s i, HasDerivAt (fun r => f l x r i) (fd l x s i) s
  | .prod a b => a.DerivOk ∧ b.DerivOk
  | .mesh m d => m.DerivOk ∧ d.DerivOk
def VMap.DerivOk : VMap ℝ IP X D ι → Prop
  | .nil => True
  | .cons _ c rest => c.DerivOk ∧ rest.DerivOk
def VOpt.DerivOk : VOpt ℝ IP X D ι → Prop
  | .none => True
  | .some c => c.DerivOk
end

/-- C64: the product coefficient evaluates `scalar · vector`, with and without a state. -/
theorem C64_product_value (lam : ℝ) (l : Loc IP) (x : X) (s : ℝ) (a : Coeff ℝ IP X D)
    (b : VCoeff ℝ IP X D ι) (i : ι) :
    (VCoeff.prod a b).evalS lam l x s i = a.evalS lam l x s * b.evalS lam l x s i ∧
    (VCoeff.prod a b).eval lam l x i = a.eval lam l x * b.eval lam l x i :=
  ⟨mul_comm _ _, mul_comm _ _⟩

mutual
/-- C64: the state derivative of a product (and of any nesting of products and mesh dependent
vector coefficients) is the derivative of its value. -/
theorem C64_state_derivative_exact (lam : ℝ) (l : Loc IP) (x : X) (s : ℝ) (c : VCoeff ℝ IP X D ι)
    (h : c.DerivOk) (i : ι) :
    HasDerivAt (fun r => c.evalS lam l x r i) (c.deriv lam l x s i) s := by
  match c with
  | .plain f _ => simpa only [VCoeff.evalS, VCoeff.deriv] using hasDerivAt_const s (f l x i)
  | .state f fd _ => exact h l x s i
  | .prod a b =>
    simp only [VCoeff.evalS, VCoeff.deriv]
    have ha := C80_state_derivative_exact lam l x s a h.1
    have hb := C64_state_derivative_exact lam l x s b h.2 i
    exact (hb.fun_mul ha).congr_deriv (by ring)
  | .mesh m d =>
    simp only [VCoeff.evalS, VCoeff.deriv]
    exact vmap_deriv_exact lam l x s m h.1 i (fun r => d.evalS lam l x r) (d.deriv lam l x s)
      (vopt_deriv_exact lam l x s d h.2 i)
theorem vmap_deriv_exact (lam : ℝ) (l : Loc IP) (x : X) (s : ℝ) (m : VMap ℝ IP X D ι)
    (h : m.DerivOk) (i : ι) (e : ℝ → ι → ℝ) (e' : ι → ℝ)
    (he : HasDerivAt (fun r => e r i) (e' i) s) :
    HasDerivAt (fun r => m.evalS lam l x r (e r) i) (m.deriv lam l x s e' i) s := by
  match m with
  | .nil => exact he
  | .cons b c rest =>
    simp only [VMap.evalS, VMap.deriv]
    by_cases hb : l.attr = b
    · simp only [if_pos hb]; exact C64_state_derivative_exact lam l x s c h.1 i
    · simp only [if_neg hb]; exact vmap_deriv_exact lam l x s rest h.2 i e e' he
theorem vopt_deriv_exact (lam : ℝ) (l : Loc IP) (x : X) (s : ℝ) (d : VOpt ℝ IP X D ι)
    (h : d.DerivOk) (i : ι) : HasDerivAt (fun r => d.evalS lam l x r i) (d.deriv lam l x s i) s := by
  match d with
  | .none => simpa only [VOpt.evalS, VOpt.deriv] using hasDerivAt_const s _
  | .some c => exact C64_state_derivative_exact lam l x s c h i
end

mutual
/-- The two-argument vector evaluation is the evaluation at state 0. -/
theorem C64_stateless_eval_is_state_zero (lam : ℝ) (l : Loc IP) (x : X) (c : VCoeff ℝ IP X D ι) :
    c.eval lam l x = c.evalS lam l x 0 := by
  match c with
  | .plain _ _ => rfl
  | .state _ _ _ => rfl
  | .prod a b =>
    simp only [VCoeff.eval, VCoeff.evalS]
    rw [C64_stateless_eval_is_state_zero lam l x b, C62_stateless_eval_is_state_zero lam l x a]
  | .mesh m d =>
    simp only [VCoeff.eval, VCoeff.evalS]
    rw [vmap_stateless lam l x _ m, vopt_stateless lam l x d]
theorem vmap_stateless (lam : ℝ) (l : Loc IP) (x : X) (e : ι → ℝ) (m : VMap ℝ IP X D ι) :
    m.eval lam l x e = m.evalS lam l x 0 e := by
  match m with
  | .nil => rfl
  | .cons b c rest =>
    simp only [VMap.eval, VMap.evalS]
    rw [C64_stateless_eval_is_state_zero lam l x c, vmap_stateless lam l x e rest]
theorem vopt_stateless (lam : ℝ) (l : Loc IP) (x : X) (d : VOpt ℝ IP X D ι) :
    d.eval lam l x = d.evalS lam l x 0 := by
  match d with
  | .none => rfl
  | .some c => exact C64_stateless_eval_is_state_zero lam l x c
end

/-- Non-vacuity: `state² · (state, 1)` is a product whose parts depend on the state. -/
example : (VCoeff.prod squareCoeff
    (.state (fun _ _ s i => if i = 0 then s else 1) (fun _ _ _ i => if i = 0 then 1 else 0)
      (fun _ _ _ _ G => some G)) : VCoeff ℝ Unit Unit Unit (Fin 2)).DerivOk := by
  refine ⟨squareCoeff_ok.1, ?_⟩
  intro l x s i
  fin_cases i
  · simpa using hasDerivAt_id' s
  · simpa using hasDerivAt_const s (1 : ℝ)

end StateDeriv

/-! ## Reverse mode with respect to the mesh nodes (C64) -/

section Rev
variable {IP X ι : Type} [NormedAddCommGroup X] [NormedSpace ℝ X] [Fintype ι]

/-- Specification: a scalar coefficient's reverse mode adds `q` times the gradient of its value
with respect to the node coordinates. -/
def RevExact (value : X → ℝ) (rev : ℝ → (X →L[ℝ] ℝ) → Option (X →L[ℝ] ℝ)) (x : X) : Prop :=
  ∃ g : X →L[ℝ] ℝ, HasFDerivAt value g x ∧ ∀ q G G', rev q G = some G' → G' = G + q • g

/-- Specification: a vector coefficient's reverse mode adds `Σ v_bar_i · gradient of component i`. -/
def VRevExact (value : X → ι → ℝ) (rev : (ι → ℝ) → (X →L[ℝ] ℝ) → Option (X →L[ℝ] ℝ)) (x : X) :
    Prop :=
  ∃ g : ι → X →L[ℝ] ℝ, (∀ i, HasFDerivAt (fun y => value y i) (g i) x) ∧
    ∀ vbar G G', rev vbar G = some G' → G' = G + ∑ i, vbar i • g i

mutual
/-- Every user supplied leaf has an exact reverse mode. -/
def Coeff.RevOk : Coeff ℝ IP X (X →L[ℝ] ℝ) → Prop
  | .plain f r => ∀ l x, RevExact (fun y => f l y) (fun q G => r q l x G) x
  | .state f _ _ r => ∀ l x s, RevExact (fun y => f l y s) (fun q G => r q l x s G) x
  | .hs _ _ _ _ => True
  | .dhs _ _ _ _ => True
  | .avg _ _ _ _ => True
  | .davg _ _ _ _ => True
  | .contin lin nonlin => lin.RevOk ∧ nonlin.RevOk
  | .mesh m d => m.RevOk ∧ d.RevOk
def CMap.RevOk : CMap ℝ IP X (X →L[ℝ] ℝ) → Prop
  | .nil => True
  | .cons _ c rest => c.RevOk ∧ rest.RevOk
def COpt.RevOk : COpt ℝ IP X (X →L[ℝ] ℝ) → Prop
  | .none => True
  | .some c => c.RevOk
end

theorem revExact_const (v : ℝ) (x : X) : RevExact (fun _ => v) (fun _ G => some G) x := by
  refine ⟨0, hasFDerivAt_const v x, ?_⟩
  intro q G G' h
  simp only [Option.some.injEq] at h
  rw [← h, smul_zero, add_zero]

mutual
/-- C80: for every nesting of coefficients whose user leaves have an exact reverse mode, the
reverse mode with respect to the mesh nodes is exact whenever it does not abort. -/
theorem C80_reverse_mode_exact (lam : ℝ) (l : Loc IP) (x : X) (s : ℝ)
    (c : Coeff ℝ IP X (X →L[ℝ] ℝ)) (h : c.RevOk) :
    RevExact (fun y => c.evalS lam l y s) (fun q G => c.rev q l x s G) x := by
  match c with
  | .plain f _ => exact h l x
  | .state f fd _ _ => exact h l x s
  | .hs a b w _ => exact revExact_const (hsEval a b w) x
  | .dhs a b w _ => exact revExact_const (dhsEval a b w) x
  | .avg a b w _ => exact revExact_const (avgEval a b w) x
  | .davg a b w _ => exact revExact_const (davgEval a b w) x
  | .contin lin nonlin =>
    obtain ⟨g1, hg1, _⟩ := C80_reverse_mode_exact lam l x 0 lin h.1
    obtain ⟨g2, hg2, _⟩ := C80_reverse_mode_exact lam l x s nonlin h.2
    refine ⟨(1 - lam) • g1 + lam • g2, ?_, ?_⟩
    · simp only [Coeff.evalS, C62_stateless_eval_is_state_zero lam l _ lin]
      exact (hg1.const_mul (1 - lam)).add (hg2.const_mul lam)
    · intro q G G' hh; cases hh
  | .mesh m d =>
    simp only [Coeff.evalS, Coeff.rev]
    exact cmap_rev_exact lam l x s m h.1 (fun y => d.evalS lam l y s)
      (fun q G => d.rev q l x s G) (copt_rev_exact lam l x s d h.2)
theorem cmap_rev_exact (lam : ℝ) (l : Loc IP) (x : X) (s : ℝ) (m : CMap ℝ IP X (X →L[ℝ] ℝ))
    (h : m.RevOk) (e : X → ℝ) (er : ℝ → (X →L[ℝ] ℝ) → Option (X →L[ℝ] ℝ))
    (he : RevExact e er x) :
    RevExact (fun y => m.evalS lam l y s (e y)) (fun q G => m.rev q l x s G (er q G)) x := by
  match m with
  | .nil => exact he
  | .cons b c rest =>
    simp only [CMap.evalS, CMap.rev]
    by_cases hb : l.attr = b
    · simp only [if_pos hb]; exact C80_reverse_mode_exact lam l x s c h.1
    · simp only [if_neg hb]; exact cmap_rev_exact lam l x s rest h.2 e er he
theorem copt_rev_exact (lam : ℝ) (l : Loc IP) (x : X) (s : ℝ) (d : COpt ℝ IP X (X →L[ℝ] ℝ))
    (h : d.RevOk) : RevExact (fun y => d.evalS lam l y s) (fun q G => d.rev q l x s G) x := by
  match d with
  | .none => exact revExact_const 0 x
  | .some c => exact C80_reverse_mode_exact lam l x s c h
end

mutual
/-- Every user supplied leaf of the vector coefficient has an exact reverse mode. -/
def VCoeff.RevOk : VCoeff ℝ IP X (X →L[ℝ] ℝ) ι → Prop
  | .plain f r => ∀ l x, VRevExact (fun y => f l y) (fun v G => r v l x G) x
  | .state f _ r => ∀ l x s, VRevExact (fun y => f l y s) (fun v G => r v l x s G) x
  | .prod a b => a.RevOk ∧ b.RevOk
  | .mesh m d => m.RevOk ∧ d.RevOk
def VMap.RevOk : VMap ℝ IP X (X →L[ℝ] ℝ) ι → Prop
  | .nil => True
  | .cons _ c rest => c.RevOk ∧ rest.RevOk
def VOpt.RevOk : VOpt ℝ IP X (X →L[ℝ] ℝ) ι → Prop
  | .none => True
  | .some c => c.RevOk
end

mutual
/-- C64: the reverse mode of a product — accumulating `a·v_bar` through the vector and `v_bar·b`
through the scalar into the same `PointMat_bar` — adds exactly `Σ v_bar_i ∂(a·b_i)/∂nodes`; the
same holds for every nesting of products and mesh dependent vector coefficients. -/
theorem C64_reverse_mode_exact (lam : ℝ) (l : Loc IP) (x : X) (s : ℝ)
    (c : VCoeff ℝ IP X (X →L[ℝ] ℝ) ι) (h : c.RevOk) :
    VRevExact (fun y => c.evalS lam l y s) (fun v G => c.rev lam v l x s G) x := by
  match c with
  | .plain f _ => exact h l x
  | .state f fd _ => exact h l x s
  | .prod a b =>
    obtain ⟨ga, hga, hra⟩ := C80_reverse_mode_exact lam l x s a h.1
    obtain ⟨gb, hgb, hrb⟩ := C64_reverse_mode_exact lam l x s b h.2
    refine ⟨fun i => b.evalS lam l x s i • ga + a.evalS lam l x s • gb i, ?_, ?_⟩
    · intro i
      simp only [VCoeff.evalS]
      exact (hgb i).mul hga
    · intro vbar G G' hh
      simp only [VCoeff.rev] at hh
      rcases hb : b.rev lam (fun i => 0 + a.evalS lam l x s * vbar i) l x s G with _ | G1
      · rw [hb] at hh; cases hh
      · rw [hb] at hh
        have e1 := hrb _ _ _ hb
        have e2 := hra _ _ _ hh
        rw [e2, e1, add_assoc]
        congr 1
        rw [Finset.sum_smul, ← Finset.sum_add_distrib]
        refine Finset.sum_congr rfl fun i _ => ?_
        module
  | .mesh m d =>
    simp only [VCoeff.evalS, VCoeff.rev]
    exact vmap_rev_exact lam l x s m h.1 (fun y => d.evalS lam l y s)
      (fun q G => d.rev lam q l x s G) (vopt_rev_exact lam l x s d h.2)
theorem vmap_rev_exact (lam : ℝ) (l : Loc IP) (x : X) (s : ℝ) (m : VMap ℝ IP X (X →L[ℝ] ℝ) ι)
    (h : m.RevOk) (e : X → ι → ℝ) (er : (ι → ℝ) → (X →L[ℝ] ℝ) → Option (X →L[ℝ] ℝ))
    (he : VRevExact e er x) :
    VRevExact (fun y => m.evalS lam l y s (e y)) (fun q G => m.rev lam q l x s G (er q G)) x := by
  match m with
  | .nil => exact he
  | .cons b c rest =>
    simp only [VMap.evalS, VMap.rev]
    by_cases hb : l.attr = b
    · simp only [if_pos hb]; exact C64_reverse_mode_exact lam l x s c h.1
    · simp only [if_neg hb]; exact vmap_rev_exact lam l x s rest h.2 e er he
theorem vopt_rev_exact (lam : ℝ) (l : Loc IP) (x : X) (s : ℝ) (d : VOpt ℝ IP X (X →L[ℝ] ℝ) ι)
    (h : d.RevOk) :
    VRevExact (fun y => d.evalS lam l y s) (fun q G => d.rev lam q l x s G) x := by
  match d with
  | .none =>
    refine ⟨fun _ => 0, fun i => hasFDerivAt_const 0 x, ?_⟩
    intro q G G' h
    simp only [VOpt.rev, Option.some.injEq] at h
    simp [h]
  | .some c => exact C64_reverse_mode_exact lam l x s c h
end

/-- Non-vacuity: a product over the line of node positions, `a = x`, `b = (x, 1)`; the reverse
mode at `x = 3` gives `7·6 + 5·1` times `dx`. -/
example : ∃ G', (VCoeff.prod
      (.plain (fun _ y => y) (fun q _ _ G => some (G + q • ContinuousLinearMap.id ℝ ℝ)))
      (.plain (fun _ y i => if i = 0 then y else 1)
        (fun v _ _ G => some (G + v 0 • ContinuousLinearMap.id ℝ ℝ))) :
      VCoeff ℝ Unit ℝ (ℝ →L[ℝ] ℝ) (Fin 2)).rev 0 ![7, 5] ⟨1, ()⟩ 3 0 0 = some G' ∧ G' 1 = 47 := by
  refine ⟨_, rfl, ?_⟩
  simp [VCoeff.evalS, Coeff.evalS, Fin.sum_univ_two]
  norm_num

/-- ... and its leaves meet the hypothesis of the theorem. -/
example : (VCoeff.prod
      (.plain (fun _ y => y) (fun q _ _ G => some (G + q • ContinuousLinearMap.id ℝ ℝ)))
      (.plain (fun _ y i => if i = 0 then y else 1)
        (fun v _ _ G => some (G + v 0 • ContinuousLinearMap.id ℝ ℝ))) :
      VCoeff ℝ Unit ℝ (ℝ →L[ℝ] ℝ) (Fin 2)).RevOk := by
  refine ⟨fun l x => ⟨ContinuousLinearMap.id ℝ ℝ, hasFDerivAt_id x, ?_⟩,
    fun l x => ⟨fun i => if i = 0 then ContinuousLinearMap.id ℝ ℝ else 0, ?_, ?_⟩⟩
  · intro q G G' h
    simpa using h.symm
  · intro i
    fin_cases i
    · exact hasFDerivAt_id x
    · simpa using hasFDerivAt_const (1 : ℝ) x
  · intro v G G' h
    simp only [Option.some.injEq] at h
    simp [← h]

end Rev

/-! ## Inputs reach every material (C81) -/

section Inputs
variable {K IP X D : Type}

theorem CMap.setInputs_find (inp : Inputs K) (m m' : CMap K IP X D)
    (h : m.setInputs inp = .ok m') (a : ℤ) :
    (∀ c, m.find a = some c → ∃ c', c.setInputs inp = .ok c' ∧ m'.find a = some c') ∧
    (m.find a = none → m'.find a = none) := by
  match m with
  | .nil =>
    simp only [CMap.setInputs, Out.ok.injEq] at h
    subst h
    simp [CMap.find]
  | .cons b c rest =>
    simp only [CMap.setInputs] at h
    rcases hc : c.setInputs inp with c' | _ | _ | _ <;> rw [hc] at h
    · rcases hr : rest.setInputs inp with rest' | _ | _ | _ <;> rw [hr] at h
      · simp only [Out.ok.injEq] at h
        subst h
        have ih := CMap.setInputs_find inp rest rest' hr a
        simp only [CMap.find]
        by_cases hab : a = b
        · simp only [if_pos hab, Option.some.injEq]
          refine ⟨?_, by simp⟩
          rintro c0 rfl
          exact ⟨c', hc, rfl⟩
        · simp only [if_neg hab]
          exact ih
      all_goals cases h
    all_goals cases h

/-- C81: after `setInputs` succeeds on a mesh dependent coefficient, the coefficient of every
attribute (and the default) has received the inputs. -/
theorem C81_inputs_reach_every_material (inp : Inputs K) (m : CMap K IP X D) (d : COpt K IP X D)
    (M' : Coeff K IP X D) (h : (Coeff.mesh m d).setInputs inp = .ok M') :
    ∃ m' d', M' = .mesh m' d' ∧
      (∀ a c, m.find a = some c → ∃ c', c.setInputs inp = .ok c' ∧ m'.find a = some c') ∧
      (∀ a, m.find a = none → m'.find a = none) ∧
      (∀ c, d = .some c → ∃ c', c.setInputs inp = .ok c' ∧ d' = .some c') ∧
      (d = .none → d' = .none) := by
  simp only [Coeff.setInputs] at h
  rcases hm : m.setInputs inp with m' | _ | _ | _ <;> rw [hm] at h
  · rcases hd : d.setInputs inp with d' | _ | _ | _ <;> rw [hd] at h
    · simp only [Out.ok.injEq] at h
      refine ⟨m', d', h.symm, fun a => (CMap.setInputs_find inp m m' hm a).1,
        fun a => (CMap.setInputs_find inp m m' hm a).2, ?_, ?_⟩
      · rintro c rfl
        simp only [COpt.setInputs] at hd
        rcases hc : c.setInputs inp with c' | _ | _ | _ <;> rw [hc] at hd
        · simp only [Out.ok.injEq] at hd
          exact ⟨c', rfl, hd.symm⟩
        all_goals cases hd
      · rintro rfl
        simp only [COpt.setInputs, Out.ok.injEq] at hd
        exact hd.symm
    all_goals cases h
  all_goals cases h

mutual
/-- C81: setting the same scalar inputs twice is the same as setting them once. -/
theorem C81_set_inputs_idempotent (inp : Inputs K) (c c' : Coeff K IP X D)
    (h : c.setInputs inp = .ok c') : c'.setInputs inp = .ok c' := by
  match c with
  | .plain _ _ => simp only [Coeff.setInputs, Out.ok.injEq] at h; subst h; rfl
  | .state _ _ _ _ => simp only [Coeff.setInputs, Out.ok.injEq] at h; subst h; rfl
  | .hs a b w k =>
    rcases hk : inp k with _ | (v | v) <;>
      simp only [Coeff.setInputs, setValueFromInputs, setValueFromInput, hk, Bool.false_eq_true,
        if_false, Out.ok.injEq, reduceCtorEq] at h
    all_goals subst h; simp [Coeff.setInputs, setValueFromInputs, setValueFromInput, hk]
  | .dhs a b w k =>
    rcases hk : inp k with _ | (v | v) <;>
      simp only [Coeff.setInputs, setValueFromInputs, setValueFromInput, hk, Bool.false_eq_true,
        if_false, Out.ok.injEq, reduceCtorEq] at h
    all_goals subst h; simp [Coeff.setInputs, setValueFromInputs, setValueFromInput, hk]
  | .avg a b w k =>
    rcases hk : inp k with _ | (v | v) <;>
      simp only [Coeff.setInputs, setValueFromInputs, setValueFromInput, hk, Bool.false_eq_true,
        if_false, Out.ok.injEq, reduceCtorEq] at h
    all_goals subst h; simp [Coeff.setInputs, setValueFromInputs, setValueFromInput, hk]
  | .davg a b w k =>
    rcases hk : inp k with _ | (v | v) <;>
      simp only [Coeff.setInputs, setValueFromInputs, setValueFromInput, hk, Bool.false_eq_true,
        if_false, Out.ok.injEq, reduceCtorEq] at h
    all_goals subst h; simp [Coeff.setInputs, setValueFromInputs, setValueFromInput, hk]
  | .contin _ _ => simp only [Coeff.setInputs, Out.ok.injEq] at h; subst h; rfl
  | .mesh m d =>
    simp only [Coeff.setInputs] at h
    rcases hm : m.setInputs inp with m' | _ | _ | _ <;> rw [hm] at h
    · rcases hd : d.setInputs inp with d' | _ | _ | _ <;> rw [hd] at h
      · simp only [Out.ok.injEq] at h
        subst h
        simp only [Coeff.setInputs, cmap_setInputs_idem inp m m' hm, copt_setInputs_idem inp d d' hd]
      all_goals cases h
    all_goals cases h
theorem cmap_setInputs_idem (inp : Inputs K) (m m' : CMap K IP X D)
    (h : m.setInputs inp = .ok m') : m'.setInputs inp = .ok m' := by
  match m with
  | .nil => simp only [CMap.setInputs, Out.ok.injEq] at h; subst h; rfl
  | .cons b c rest =>
    simp only [CMap.setInputs] at h
    rcases hc : c.setInputs inp with c' | _ | _ | _ <;> rw [hc] at h
    · rcases hr : rest.setInputs inp with r' | _ | _ | _ <;> rw [hr] at h
      · simp only [Out.ok.injEq] at h
        subst h
        simp only [CMap.setInputs, C81_set_inputs_idempotent inp c c' hc,
          cmap_setInputs_idem inp rest r' hr]
      all_goals cases h
    all_goals cases h
theorem copt_setInputs_idem (inp : Inputs K) (d d' : COpt K IP X D)
    (h : d.setInputs inp = .ok d') : d'.setInputs inp = .ok d' := by
  match d with
  | .none => simp only [COpt.setInputs, Out.ok.injEq] at h; subst h; rfl
  | .some c =>
    simp only [COpt.setInputs] at h
    rcases hc : c.setInputs inp with c' | _ | _ | _ <;> rw [hc] at h
    · simp only [Out.ok.injEq] at h
      subst h
      simp only [COpt.setInputs, C81_set_inputs_idempotent inp c c' hc]
    all_goals cases h
end

/-- C81: a continuation coefficient does *not* forward inputs to the coefficients it blends, so a
weighted material inside one keeps its old fill factor. -/
theorem C81_false_continuation_forwards :
    ¬ ∀ (inp : Inputs ℚ) (lin nonlin lin' : Coeff ℚ Unit Unit Unit) (c' : Coeff ℚ Unit Unit Unit),
      lin.setInputs inp = .ok lin' → (Coeff.contin lin nonlin).setInputs inp = .ok c' →
      ∃ n', c' = .contin lin' n' := by
  intro h
  obtain ⟨n', hn⟩ := h (fun _ => some (.val 1)) (mkHS 2 1 "ff") (mkHS 2 1 "ff") (.hs 2 1 1 "ff")
    (.contin (mkHS 2 1 "ff") (mkHS 2 1 "ff"))
    (by norm_num [mkHS, Coeff.setInputs, setValueFromInputs, setValueFromInput]) rfl
  norm_num [mkHS] at hn

/-- Non-vacuity: two weighted materials driven by different inputs. -/
example : ∃ M', (Coeff.mesh (.cons 1 (mkHS 2 1 "ff") (.cons 2 (mkAvg 8 4 "gf") .nil)) .none :
      Coeff ℚ Unit Unit Unit).setInputs
      (fun k => if k = "ff" then some (.val 1) else none) = .ok M' ∧
    M'.eval 0 ⟨1, ()⟩ () = 2 ∧ M'.eval 0 ⟨2, ()⟩ () = 6 := by
  refine ⟨.mesh (.cons 1 (.hs 2 1 1 "ff") (.cons 2 (.avg 8 4 (1/2) "gf") .nil)) .none, ?_, ?_⟩
  · norm_num [mkHS, mkAvg, Coeff.setInputs, CMap.setInputs, COpt.setInputs, setValueFromInputs,
      setValueFromInput, show ¬ ("gf" = "ff") by decide]
  · norm_num [Coeff.eval, CMap.eval, hsEval, avgEval]

end Inputs

end Verif.Coefficients
