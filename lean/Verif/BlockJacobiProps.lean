import Mathlib.Algebra.BigOperators.Ring.Finset
import Mathlib.Algebra.BigOperators.Intervals
import Mathlib.Tactic.Ring
import Mathlib.Tactic.Linarith
import Verif.BlockJacobi

/-! # Block-Jacobi preconditioner: property theorems (C35) -/

namespace Verif.BlockJacobi

open Finset

set_option linter.unusedSectionVars false

variable {K : Type} [Field K]

/-- Specification: `y` is, segment by segment, the block's action on the same segment of `x` (identity where no solver is set). -/
def Blockwise (off : ℕ → ℕ) (nB : ℕ) (act : ℕ → V K → V K) (x y : V K) : Prop :=
  ∀ i < nB, ∀ m, off i ≤ m → m < off (i + 1) → y m = act i (fun j => x (off i + j)) (m - off i)

/-- The action of a block. -/
def action (op : ℕ → Option (Solver K)) (i : ℕ) : V K → V K :=
  match op i with | some s => s.mult | none => id

def actionT (op : ℕ → Option (Solver K)) (i : ℕ) : V K → V K :=
  match op i with | some s => s.multT | none => id

private theorem loop_blockwise (off : ℕ → ℕ) (hoff : Monotone off) (f : ℕ → V K → V K) (x : V K) (L : ℕ → V K)
    (hL : ∀ i, L (i + 1) = setBlock off (L i) i (f i (getBlock off x i))) :
    ∀ n, Blockwise off n f x (L n) := by
  intro n
  induction n with
  | zero => intro i hi; omega
  | succ n ih =>
    intro i hi m h1 h2
    rw [hL]
    unfold setBlock
    by_cases hin : i = n
    · subst hin; rw [if_pos ⟨h1, h2⟩]; rfl
    · have : i + 1 ≤ n := by omega
      have hle : off (i + 1) ≤ off n := hoff this
      rw [if_neg (by omega)]
      exact ih i (by omega) m h1 h2

private theorem mult_rec (off : ℕ → ℕ) (op : ℕ → Option (Solver K)) (x : V K) (i : ℕ) :
    multLoop off op x (i + 1) = setBlock off (multLoop off op x i) i (action op i (getBlock off x i)) := by
  simp only [multLoop, action]
  cases op i <;> rfl

private theorem multT_rec (off : ℕ → ℕ) (op : ℕ → Option (Solver K)) (x : V K) (i : ℕ) :
    multTLoop off op x (i + 1) = setBlock off (multTLoop off op x i) i (actionT op i (getBlock off x i)) := by
  simp only [multTLoop, actionT]
  cases op i <;> rfl

/-- **C35** `Mult` applies each block's solver to its own segment, and copies the segment where no solver is set; each result segment depends on the same segment of `x` only. -/
theorem C35_mult_blockwise (off : ℕ → ℕ) (hoff : Monotone off) (nB : ℕ) (op : ℕ → Option (Solver K)) (x : V K) :
    Blockwise off nB (action op) x (multLoop off op x nB) :=
  loop_blockwise off hoff (action op) x _ (mult_rec off op x) nB

/-- **C35** Same for `MultTranspose`. -/
theorem C35_multTranspose_blockwise (off : ℕ → ℕ) (hoff : Monotone off) (nB : ℕ) (op : ℕ → Option (Solver K)) (x : V K) :
    Blockwise off nB (actionT op) x (multTLoop off op x nB) :=
  loop_blockwise off hoff (actionT op) x _ (multT_rec off op x) nB

private theorem exists_block (off : ℕ → ℕ) (h0 : off 0 = 0) (nB m : ℕ) (hm : m < off nB) :
    ∃ i < nB, off i ≤ m ∧ m < off (i + 1) := by
  induction nB with
  | zero => omega
  | succ n ih =>
    by_cases h : m < off n
    · obtain ⟨i, hi, h1, h2⟩ := ih h
      exact ⟨i, by omega, h1, h2⟩
    · exact ⟨n, by omega, by omega, hm⟩

/-- **C35** If every block's solver is linear, so is the preconditioner. -/
theorem C35_linear (off : ℕ → ℕ) (hoff : Monotone off) (h0 : off 0 = 0) (nB : ℕ) (op : ℕ → Option (Solver K))
    (hlin : ∀ i s, op i = some s → ∀ (a : K) (u v : V K) j, s.mult (fun j => a * u j + v j) j = a * s.mult u j + s.mult v j)
    (a : K) (x z : V K) (m : ℕ) (hm : m < off nB) :
    multLoop off op (fun j => a * x j + z j) nB m = a * multLoop off op x nB m + multLoop off op z nB m := by
  obtain ⟨i, hi, h1, h2⟩ := exists_block off h0 nB m hm
  rw [C35_mult_blockwise off hoff nB op _ i hi m h1 h2, C35_mult_blockwise off hoff nB op x i hi m h1 h2,
    C35_mult_blockwise off hoff nB op z i hi m h1 h2]
  unfold action
  cases h : op i with
  | none => rfl
  | some s => exact hlin i s h a _ _ _

private theorem sum_blocks (off : ℕ → ℕ) (hoff : Monotone off) (h0 : off 0 = 0) (g : ℕ → K) :
    ∀ nB, ∑ m ∈ range (off nB), g m = ∑ i ∈ range nB, ∑ j ∈ range (off (i + 1) - off i), g (off i + j) := by
  intro nB
  induction nB with
  | zero => simp [h0]
  | succ n ih =>
    rw [sum_range_succ, ← ih]
    have : off n ≤ off (n + 1) := hoff (Nat.le_succ n)
    conv_lhs => rw [show off (n + 1) = off n + (off (n + 1) - off n) by omega]
    rw [sum_range_add]

/-- **C35** If each block's transpose solver is adjoint to its solver on that block's segment, `MultTranspose` is adjoint to `Mult`. -/
theorem C35_transpose_adjoint (off : ℕ → ℕ) (hoff : Monotone off) (h0 : off 0 = 0) (nB : ℕ) (op : ℕ → Option (Solver K))
    (hadj : ∀ i s, op i = some s → ∀ u v : V K,
      ∑ j ∈ range (off (i + 1) - off i), u j * s.mult v j = ∑ j ∈ range (off (i + 1) - off i), s.multT u j * v j)
    (x z : V K) :
    ∑ m ∈ range (off nB), z m * multLoop off op x nB m = ∑ m ∈ range (off nB), multTLoop off op z nB m * x m := by
  rw [sum_blocks off hoff h0, sum_blocks off hoff h0]
  refine sum_congr rfl fun i hi => ?_
  have hi := mem_range.mp hi
  have hmono : off i ≤ off (i + 1) := hoff (Nat.le_succ i)
  have e1 : ∀ j ∈ range (off (i + 1) - off i), z (off i + j) * multLoop off op x nB (off i + j)
      = z (off i + j) * action op i (fun j => x (off i + j)) j := by
    intro j hj
    have := mem_range.mp hj
    rw [C35_mult_blockwise off hoff nB op x i hi (off i + j) (by omega) (by omega), Nat.add_sub_cancel_left]
  have e2 : ∀ j ∈ range (off (i + 1) - off i), multTLoop off op z nB (off i + j) * x (off i + j)
      = actionT op i (fun j => z (off i + j)) j * x (off i + j) := by
    intro j hj
    have := mem_range.mp hj
    rw [C35_multTranspose_blockwise off hoff nB op z i hi (off i + j) (by omega) (by omega), Nat.add_sub_cancel_left]
  rw [sum_congr rfl e1, sum_congr rfl e2]
  unfold action actionT
  cases h : op i with
  | none => rfl
  | some s => exact hadj i s h _ _

/-- **C35** `SetOperator` rebuilds exactly the blocks that have a solver, each from its own diagonal block; unsupported operators throw; `SetDiagonalBlock` changes one block only. -/
theorem C35_set_operator (nB : ℕ) (build : ℕ → (ℕ → ℕ → K) → Solver K) (op : ℕ → Option (Solver K)) (d : ℕ → (ℕ → ℕ → K)) :
    (∃ op', setOperator nB build op (.block d) = some op' ∧ setOperator nB build op (.jacFree d) = some op' ∧
      (∀ i < nB, ∀ s, op i = some s → op' i = some (build i (d i))) ∧ (∀ i, op i = none → op' i = none)) ∧
    setOperator nB build op .other = none ∧
    (∀ i s j, setDiagonalBlock op i s j = if j = i then s else op j) := by
  refine ⟨⟨_, rfl, rfl, ?_, ?_⟩, rfl, fun _ _ _ => rfl⟩
  · intro i hi s h; simp [hi, h]
  · intro i h; simp [h]

/-- **C35** The diagonal blocks handed over by a Jacobian-free operator are `scale * J_ii + M_ii` (for an operator with explicit part `M`), the diagonal blocks of the operator it represents; unsupported kinds throw. -/
theorem C35_jacobian_free_blocks (scale : K) (d : ℕ → (ℕ → ℕ → K)) (kind : MKind) (jac : ℕ → ℕ → K) (i : ℕ) :
    (kind ≠ .other → getDiagonalBlock scale (.blocks d) kind jac i = some (fun a b => scale * jac a b + d i a b) ∧
      getDiagonalBlock scale .none kind jac i = some (fun a b => scale * jac a b)) ∧
    (kind = .other → getDiagonalBlock scale (.blocks d) kind jac i = none) ∧
    getDiagonalBlock scale .notBlock kind jac i = none := by
  refine ⟨fun h => ⟨?_, ?_⟩, fun h => by simp [getDiagonalBlock, h], rfl⟩
  · simp [getDiagonalBlock, h, mul_comm]
  · simp [getDiagonalBlock, h, mul_comm]

/-- Two blocks of sizes 1 and 2; the first has a doubling solver, the second none. -/
example : let off : ℕ → ℕ := fun i => if i = 0 then 0 else if i = 1 then 1 else 3
    let op : ℕ → Option (Solver ℚ) := fun i => if i = 0 then some ⟨fun u j => 2 * u j, fun u j => 2 * u j⟩ else none
    Monotone off ∧ (List.range 3).map (multLoop off op (fun m => (m : ℚ) + 1) 2) = [2, 2, 3] := by
  refine ⟨fun a b h => ?_, ?_⟩
  · simp only; split_ifs <;> omega
  · norm_num [List.range_succ, multLoop, setBlock, getBlock]

end Verif.BlockJacobi
