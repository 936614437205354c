import Verif.Sbp
import Mathlib.Algebra.BigOperators.Intervals
import Mathlib.Algebra.BigOperators.Pi
import Mathlib.Algebra.BigOperators.Ring.Finset
import Mathlib.Tactic.Ring
import Mathlib.Tactic.Linarith

/-!
A small calculus for accumulation loops: `Adds body f` says that running `body` adds `f` to the
state, whatever the state is.
-/

namespace Verif.Sbp
open Finset

/-- Running `body` adds `f` to whatever is there. -/
def Adds {σ : Type*} [Add σ] (body : σ → σ) (f : σ) : Prop := ∀ s, body s = s + f

theorem Adds.apply {σ : Type*} [Add σ] {body : σ → σ} {f : σ} (h : Adds body f) (s : σ) :
    body s = s + f := h s

theorem forN_zero {σ : Type*} (body : ℕ → σ → σ) (s : σ) : forN 0 body s = s := rfl
theorem forN_succ {σ : Type*} (n : ℕ) (body : ℕ → σ → σ) (s : σ) :
    forN (n + 1) body s = body n (forN n body s) := rfl

theorem Adds.forN {σ : Type*} [AddCommMonoid σ] {n : ℕ} {body : ℕ → σ → σ} {f : ℕ → σ}
    (h : ∀ k, k < n → Adds (body k) (f k)) : Adds (forN n body) (∑ k ∈ range n, f k) := by
  intro s
  induction n with
  | zero => simp [Sbp.forN]
  | succ n ih =>
    rw [forN_succ, ih (fun k hk => h k (by omega)), h n (by omega), sum_range_succ, add_assoc]

theorem Adds.forFromTo {σ : Type*} [AddCommMonoid σ] {a b : ℕ} {body : ℕ → σ → σ} {f : ℕ → σ}
    (h : ∀ k, a ≤ k → k < b → Adds (body k) (f k)) :
    Adds (forFromTo a b body) (∑ k ∈ Ico a b, f k) := by
  intro s
  rw [sum_Ico_eq_sum_range]
  exact Adds.forN (fun k hk => h (a + k) (by omega) (by omega)) s

theorem Adds.comp {σ : Type*} [AddSemigroup σ] {b₁ b₂ : σ → σ} {f₁ f₂ : σ} (h₁ : Adds b₁ f₁)
    (h₂ : Adds b₂ f₂) : Adds (fun s => b₂ (b₁ s)) (f₁ + f₂) := by
  intro s; show b₂ (b₁ s) = _; rw [h₁, h₂, add_assoc]

theorem forN_congr {σ : Type*} {n : ℕ} {b₁ b₂ : ℕ → σ → σ} (h : ∀ k < n, ∀ s, b₁ k s = b₂ k s)
    (s : σ) : forN n b₁ s = forN n b₂ s := by
  induction n with
  | zero => rfl
  | succ n ih => rw [forN_succ, forN_succ, ih (fun k hk => h k (by omega)), h n (by omega)]

variable {K : Type*} [Field K]

theorem adds_addAt (i : ℕ) (x : K) : Adds (addAt i x) (fun p => if p = i then x else 0) := by
  intro v; funext p; simp only [addAt, Pi.add_apply]; split_ifs <;> simp

theorem adds_addAt2 (i j : ℕ) (x : K) :
    Adds (addAt2 i j x) (fun p q => if p = i ∧ q = j then x else 0) := by
  intro v; funext p q; simp only [addAt2, Pi.add_apply]; split_ifs <;> simp

/-- A scalar accumulator. -/
theorem forN_sum (n : ℕ) (f : ℕ → K) (s : K) :
    forN n (fun k S => S + f k) s = s + ∑ k ∈ range n, f k := by
  induction n with
  | zero => simp [forN]
  | succ n ih => rw [forN_succ, ih, sum_range_succ, add_assoc]

theorem forN_sum_sub (n : ℕ) (f : ℕ → K) (s : K) :
    forN n (fun k S => S - f k) s = s - ∑ k ∈ range n, f k := by
  induction n with
  | zero => simp [forN]
  | succ n ih => rw [forN_succ, ih, sum_range_succ]; ring

theorem getSkewEntry_eq (e : Elem K) (di i j : ℕ) (a b : ℕ → ℕ → K) :
    getSkewEntry e di i j a b =
      ∑ k ∈ range e.dim, (a k di * e.Q k j i - b k di * e.Q k i j) := by
  rw [getSkewEntry, forN_sum, zero_add]

theorem getSymEntry_eq (e : Elem K) (di i : ℕ) (a : ℕ → ℕ → K) :
    getSymEntry e di i a = ∑ k ∈ range e.dim, a k di * e.Q k i i := by
  rw [getSymEntry, forN_sum, zero_add]

theorem getProjOperatorEntry_eq (e : Elem K) (i j : ℕ) :
    getProjOperatorEntry e i j =
      (if i = j then 1 else 0) - ∑ k ∈ range e.nv, e.V i k * e.V j k * e.H j := by
  rw [getProjOperatorEntry, forN_sum_sub]

/-- Accumulation into entry `(n, i)` with `i` outermost, `j` in the middle and `n` innermost. -/
theorem forN3_addAt2 (A B C : ℕ) (g : ℕ → ℕ → ℕ → K) (M : ℕ → ℕ → K) (n i : ℕ) (hn : n < C)
    (hi : i < A) :
    forN A (fun i => forN B (fun j => forN C (fun n => addAt2 n i (g i j n)))) M n i =
      M n i + ∑ j ∈ range B, g i j n := by
  have : Adds (forN A (fun i => forN B (fun j => forN C (fun n => addAt2 n i (g i j n)))))
      (∑ i ∈ range A, ∑ j ∈ range B, ∑ n ∈ range C,
        fun p q => if p = n ∧ q = i then g i j n else 0) :=
    Adds.forN fun i _ => Adds.forN fun j _ => Adds.forN fun n _ => adds_addAt2 n i _
  rw [this.apply]
  simp only [Pi.add_apply, sum_apply]
  congr 1
  rw [sum_eq_single i]
  · refine sum_congr rfl fun j _ => ?_
    rw [sum_eq_single n]
    · simp
    · intro b _ hb; rw [if_neg]; rintro ⟨h, -⟩; exact hb h.symm
    · simp [hn]
  · intro b _ hb
    refine sum_eq_zero fun j _ => sum_eq_zero fun m _ => ?_
    rw [if_neg]; rintro ⟨-, h⟩; exact hb h.symm
  · simp [hi]

theorem multWeak_eq (e : Elem K) (ns di : ℕ) (u Qu : ℕ → ℕ → K) (n i : ℕ) (hn : n < ns)
    (hi : i < e.dof) :
    multWeakOperator e ns di false u Qu n i =
      Qu n i + ∑ j ∈ range e.dof, e.Q di j i * u n j :=
  forN3_addAt2 e.dof e.dof ns (fun i j n => e.Q di j i * u n j) Qu n i hn hi

theorem multWeakT_eq (e : Elem K) (ns di : ℕ) (u Qu : ℕ → ℕ → K) (n i : ℕ) (hn : n < ns)
    (hi : i < e.dof) :
    multWeakOperator e ns di true u Qu n i =
      Qu n i - ∑ j ∈ range e.dof, e.Q di i j * u n j := by
  rw [sub_eq_add_neg, ← sum_neg_distrib]
  exact forN3_addAt2 e.dof e.dof ns (fun i j n => -(e.Q di i j * u n j)) Qu n i hn hi

/-- Sum of `single`s over one loop. -/
theorem sum_single (N a : ℕ) (ha : a < N) (f : ℕ → K) :
    (∑ k ∈ range N, if a = k then f k else 0) = f a := by
  rw [sum_ite_eq]; simp [ha]

theorem multWeakNode_eq (e : Elem K) (ns di i : ℕ) (u : ℕ → ℕ → K) (n : ℕ) (hn : n < ns) :
    multWeakNode e ns di i u n = ∑ j ∈ range e.dof, e.Q di j i * u n j := by
  have : Adds (forN e.dof (fun j => forN ns (fun n => addAt n (e.Q di j i * u n j))))
      (∑ j ∈ range e.dof, ∑ n ∈ range ns, fun p => if p = n then e.Q di j i * u n j else 0) :=
    Adds.forN fun j _ => Adds.forN fun n _ => adds_addAt n _
  rw [multWeakNode, this.apply]
  simp only [Pi.add_apply, sum_apply, zero_add]
  exact sum_congr rfl fun j _ => sum_single ns n hn (fun m => e.Q di j i * u m j)

theorem projProd_eq (e : Elem K) (ns : ℕ) (trans : Bool) (u : ℕ → ℕ → K) (i n : ℕ) (hn : n < ns) :
    projProd e ns trans u i n = ∑ j ∈ range e.dof,
      (if trans then e.V j i * u n j else e.V j i * e.H j * u n j) := by
  have : Adds (forN e.dof (fun j => forN ns (fun n => addAt n
      (if trans then e.V j i * u n j else e.V j i * e.H j * u n j))))
      (∑ j ∈ range e.dof, ∑ n ∈ range ns, fun p => if p = n then
        (if trans then e.V j i * u n j else e.V j i * e.H j * u n j) else 0) :=
    Adds.forN fun j _ => Adds.forN fun n _ => adds_addAt n _
  rw [projProd, this.apply]
  simp only [Pi.add_apply, sum_apply, zero_add]
  exact sum_congr rfl fun j _ => sum_single ns n hn
    (fun m => if trans then e.V j i * u m j else e.V j i * e.H j * u m j)

theorem multProj_raw (e : Elem K) (ns : ℕ) (trans : Bool) (u : ℕ → ℕ → K) (n j : ℕ) (hn : n < ns)
    (hj : j < e.dof) :
    multProjOperator e ns trans u n j = u n j - ∑ i ∈ range e.nv,
      (if trans then e.V j i * e.H j else e.V j i) * projProd e ns trans u i n := by
  set g : ℕ → ℕ → ℕ → K := fun i j n =>
    -((if trans then e.V j i * e.H j else e.V j i) * projProd e ns trans u i n) with hg
  have : Adds (forN e.nv (fun i => forN e.dof (fun j => forN ns (fun n => addAt2 n j (g i j n)))))
      (∑ i ∈ range e.nv, ∑ j ∈ range e.dof, ∑ n ∈ range ns,
        fun p q => if p = n ∧ q = j then g i j n else 0) :=
    Adds.forN fun i _ => Adds.forN fun j _ => Adds.forN fun n _ => adds_addAt2 n j _
  have h2 : multProjOperator e ns trans u =
      forN e.nv (fun i => forN e.dof (fun j => forN ns (fun n => addAt2 n j (g i j n)))) u := rfl
  rw [h2, this.apply]
  simp only [Pi.add_apply, sum_apply]
  rw [sub_eq_add_neg, ← sum_neg_distrib]
  congr 1
  refine sum_congr rfl fun i _ => ?_
  rw [sum_eq_single j, sum_eq_single n]
  · simp [hg]
  · intro b _ hb; rw [if_neg]; rintro ⟨h, -⟩; exact hb h.symm
  · simp [hn]
  · intro b _ hb; refine sum_eq_zero fun m _ => ?_
    rw [if_neg]; rintro ⟨-, h⟩; exact hb h.symm
  · simp [hj]

theorem multProj_eq (e : Elem K) (ns : ℕ) (u : ℕ → ℕ → K) (n i : ℕ) (hn : n < ns)
    (hi : i < e.dof) :
    multProjOperator e ns false u n i =
      ∑ j ∈ range e.dof, getProjOperatorEntry e i j * u n j := by
  rw [multProj_raw e ns false u n i hn hi]
  simp only [getProjOperatorEntry_eq, projProd_eq e ns false u _ n hn, sub_mul, sum_sub_distrib,
    ite_mul, one_mul, zero_mul, sum_ite_eq, mem_range, hi, if_true, sum_mul, mul_sum,
    Bool.false_eq_true, if_false]
  congr 1
  rw [sum_comm]
  exact sum_congr rfl fun j _ => sum_congr rfl fun k _ => by ring

theorem multProjT_eq (e : Elem K) (ns : ℕ) (u : ℕ → ℕ → K) (n i : ℕ) (hn : n < ns)
    (hi : i < e.dof) :
    multProjOperator e ns true u n i =
      ∑ j ∈ range e.dof, getProjOperatorEntry e j i * u n j := by
  rw [multProj_raw e ns true u n i hn hi]
  simp only [getProjOperatorEntry_eq, projProd_eq e ns true u _ n hn, sub_mul, sum_sub_distrib,
    ite_mul, one_mul, zero_mul, sum_ite_eq', mem_range, hi, if_true, sum_mul, mul_sum]
  congr 1
  rw [sum_comm]
  exact sum_congr rfl fun j _ => sum_congr rfl fun k _ => by ring

end Verif.Sbp
