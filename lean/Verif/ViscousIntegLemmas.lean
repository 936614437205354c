import Verif.ViscousInteg
import Verif.InviscidIntegLemmas

/-!
Closed forms of the element vectors and matrices of `ViscousInteg.lean`: every assembled vector is
described by its inner product with an arbitrary test vector, every assembled matrix by its bilinear
form.
-/

namespace Verif.ViscousInteg
open Finset Verif.Sbp Verif.Inviscid

set_option linter.unusedSectionVars false

variable {K : Type*} [Field K]

/-- Bilinear form of the leading `len x len` block. -/
def bil (len : ℕ) (M : ℕ → ℕ → K) (a v : ℕ → K) : K := dotV len a (mulVec len M v)

theorem mulVec_sum_fun (len : ℕ) (s : Finset ℕ) (A : ℕ → ℕ → ℕ → K) (v : ℕ → K) :
    mulVec len (∑ k ∈ s, A k) v = ∑ k ∈ s, mulVec len (A k) v := by
  funext p; rw [mulVec_sum, Finset.sum_apply]

theorem bil_sum (len : ℕ) (s : Finset ℕ) (A : ℕ → ℕ → ℕ → K) (a v : ℕ → K) :
    bil len (∑ k ∈ s, A k) a v = ∑ k ∈ s, bil len (A k) a v := by
  rw [bil, mulVec_sum_fun, dotV_sum]; rfl

theorem bil_add (len : ℕ) (A B : ℕ → ℕ → K) (a v : ℕ → K) :
    bil len (A + B) a v = bil len A a v + bil len B a v := by
  rw [bil, bil, bil, ← dotV_add]; congr 1; funext p; exact mulVec_add _ _ _ _ _

theorem bil_single (len r c : ℕ) (hr : r < len) (hc : c < len) (x : K) (a v : ℕ → K) :
    bil len (fun p q => if p = r ∧ q = c then x else 0) a v = a r * x * v c := by
  have : mulVec len (fun p q => if p = r ∧ q = c then x else 0) v =
      fun p => if p = r then x * v c else 0 := by
    funext p; exact mulVec_single len r c hc x v p
  rw [bil, this, dotV_single _ _ hr]; ring

theorem bil_smul (len : ℕ) (A : ℕ → ℕ → K) (x : K) (a v : ℕ → K) :
    bil len (fun p q => A p q * x) a v = bil len A a v * x := by
  have : mulVec len (fun p q => A p q * x) v = fun p => mulVec len A v p * x := by
    funext p; exact mulVec_smul len A x v p
  rw [bil, this, bil, dotV, dotV, sum_mul]
  exact sum_congr rfl fun q _ => by ring

/-- Row `p` of the matrix-vector product. -/
theorem bil_indicator (len p : ℕ) (hp : p < len) (M : ℕ → ℕ → K) (v : ℕ → K) :
    bil len M (fun q => if q = p then 1 else 0) v = ∑ q ∈ range len, M p q * v q := by
  rw [bil, dotV_indicator _ _ hp]; rfl

/-- Physical-space weak derivative of the nodal field `f`, at node `i`. -/
def wk (e : Elem K) (adj : ℕ → ℕ → ℕ → K) (d : ℕ) (f : ℕ → K) (i : ℕ) : K :=
  ∑ j ∈ range e.dof, getQEntry e d i j (adj i) (adj j) * f j

theorem calcDw_eq (e : Elem K) (ns : ℕ) (wt : ℕ → K) (adj : ℕ → ℕ → ℕ → K)
    (convert : (ℕ → K) → (ℕ → K)) (u : ℕ → K) (i s d : ℕ) (hs : s < ns) (hd : d < e.dim) :
    calcDw e ns wt adj convert u i s d =
      wk e adj d (fun j => convert (row u e.dof j) s) i * hinv e wt i := by
  have h : Adds (forN e.dof (fun j => forN e.dim (fun d => forN ns (fun s =>
      addAt2 s d (getQEntry e d i j (adj i) (adj j) * convert (row u e.dof j) s)))))
      (∑ j ∈ range e.dof, ∑ d ∈ range e.dim, ∑ s ∈ range ns, fun p q => if p = s ∧ q = d then
        getQEntry e d i j (adj i) (adj j) * convert (row u e.dof j) s else 0) :=
    Adds.forN fun _ _ => Adds.forN fun _ _ => Adds.forN fun _ _ => adds_addAt2 _ _ _
  rw [calcDw]
  simp only
  rw [h.apply, fun_zero_eq2, zero_add]
  congr 1
  simp only [Finset.sum_apply]
  rw [wk]
  refine sum_congr rfl fun j _ => ?_
  rw [sum_eq_single d, sum_eq_single s]
  · simp
  · intro b _ hb; rw [if_neg]; exact fun h => hb h.1.symm
  · intro h; exact absurd (mem_range.2 hs) h
  · intro b _ hb; refine sum_eq_zero fun s' _ => ?_; rw [if_neg]; exact fun h => hb h.2.symm
  · intro h; exact absurd (mem_range.2 hd) h

/-- Testing the symmetric viscous residual with any vector. -/
theorem symVec_dot (e : Elem K) (ns : ℕ) (alpha : K) (wt : ℕ → K) (adj : ℕ → ℕ → ℕ → K)
    (x : ℕ → ℕ → K) (convert : (ℕ → K) → (ℕ → K))
    (scale : ℕ → (ℕ → K) → (ℕ → K) → (ℕ → ℕ → K) → (ℕ → K)) (u a : ℕ → K) :
    dotV (ns * e.dof) a (symVec e ns alpha wt adj x convert scale u) =
      alpha * ∑ i ∈ range e.dof, ∑ d ∈ range e.dim, ∑ s ∈ range ns,
        wk e adj d (fun k => a (s * e.dof + k)) i *
          scale d (x i) (row u e.dof i) (calcDw e ns wt adj convert u i) s := by
  have h : Adds (forN e.dof (fun i => forN e.dim (fun d => forN e.dof (fun k => forN ns (fun s =>
      addAt (s * e.dof + k) (alpha * getQEntry e d i k (adj i) (adj k) *
      scale d (x i) (row u e.dof i) (calcDw e ns wt adj convert u i) s))))))
      (∑ i ∈ range e.dof, ∑ d ∈ range e.dim, ∑ k ∈ range e.dof, ∑ s ∈ range ns,
        fun p => if p = s * e.dof + k then alpha * getQEntry e d i k (adj i) (adj k) *
          scale d (x i) (row u e.dof i) (calcDw e ns wt adj convert u i) s else 0) :=
    Adds.forN fun _ _ => Adds.forN fun _ _ => Adds.forN fun _ _ => Adds.forN fun _ _ =>
      adds_addAt _ _
  rw [symVec, h.apply, fun_zero_eq, zero_add, dotV_sum, mul_sum]
  refine sum_congr rfl fun i _ => ?_
  rw [dotV_sum, mul_sum]
  refine sum_congr rfl fun d _ => ?_
  rw [dotV_sum, sum_congr rfl fun k _ => dotV_sum _ _ _ _, sum_comm, mul_sum]
  refine sum_congr rfl fun s hs => ?_
  rw [mem_range] at hs
  rw [wk, sum_mul, mul_sum]
  refine sum_congr rfl fun k hk => ?_
  rw [dotV_single _ _ (flat_lt (mem_range.1 hk) hs)]
  ring

theorem symEnergy_eq (e : Elem K) (ns : ℕ) (alpha : K) (wt : ℕ → K) (adj : ℕ → ℕ → ℕ → K)
    (x : ℕ → ℕ → K) (convert : (ℕ → K) → (ℕ → K))
    (scale : ℕ → (ℕ → K) → (ℕ → K) → (ℕ → ℕ → K) → (ℕ → K)) (u : ℕ → K) :
    symEnergy e ns alpha wt adj x convert scale u =
      ∑ i ∈ range e.dof, ∑ s ∈ range ns, convert (fun n => u (n * e.dof + i)) s *
        symVec e ns alpha wt adj x convert scale u (s * e.dof + i) := by
  rw [symEnergy, forN_sum, zero_add]
  refine sum_congr rfl fun i _ => ?_
  rw [forN_sum, zero_add]
  rfl

/-- The nodal field of converted variables as a flat vector. -/
def convVec (N : ℕ) (convert : (ℕ → K) → (ℕ → K)) (u : ℕ → K) : ℕ → K :=
  fun p => convert (row u N (p % N)) (p / N)

theorem convVec_flat (N : ℕ) (convert : (ℕ → K) → (ℕ → K)) (u : ℕ → K) (s i : ℕ) (hi : i < N) :
    convVec N convert u (s * N + i) = convert (row u N i) s := by
  rw [convVec, flat_div hi, flat_mod hi]

theorem symEnergy_dot (e : Elem K) (ns : ℕ) (alpha : K) (wt : ℕ → K) (adj : ℕ → ℕ → ℕ → K)
    (x : ℕ → ℕ → K) (convert : (ℕ → K) → (ℕ → K))
    (scale : ℕ → (ℕ → K) → (ℕ → K) → (ℕ → ℕ → K) → (ℕ → K)) (u : ℕ → K) :
    symEnergy e ns alpha wt adj x convert scale u =
      dotV (ns * e.dof) (convVec e.dof convert u) (symVec e ns alpha wt adj x convert scale u) := by
  rw [symEnergy_eq, dotV_flat, sum_comm]
  refine sum_congr rfl fun s _ => sum_congr rfl fun i hi => ?_
  rw [convVec_flat _ _ _ _ _ (mem_range.1 hi)]; rfl

/-! ### gradient -/

/-- Bilinear form of a block of `(row state, column state)` updates between nodes `k` and `j`. -/
theorem adds_block (ns N k j : ℕ) (g : ℕ → ℕ → K) :
    Adds (forN ns (fun p => forN ns (fun q => addAt2 (p * N + k) (q * N + j) (g p q))))
      (∑ p ∈ range ns, ∑ q ∈ range ns, fun r c => if r = p * N + k ∧ c = q * N + j then g p q
        else 0) :=
  Adds.forN fun _ _ => Adds.forN fun _ _ => adds_addAt2 _ _ _

theorem bil_block (ns N k j : ℕ) (hk : k < N) (hj : j < N) (g : ℕ → ℕ → K) (a v : ℕ → K) :
    bil (ns * N) (∑ p ∈ range ns, ∑ q ∈ range ns, fun r c => if r = p * N + k ∧ c = q * N + j then
      g p q else 0) a v =
      ∑ p ∈ range ns, a (p * N + k) * ∑ q ∈ range ns, g p q * v (q * N + j) := by
  rw [bil_sum]
  refine sum_congr rfl fun p hp => ?_
  rw [bil_sum, mul_sum]
  refine sum_congr rfl fun q hq => ?_
  rw [bil_single _ _ _ (flat_lt hk (mem_range.1 hp)) (flat_lt hj (mem_range.1 hq))]
  ring

theorem matMul_eq (ns : ℕ) (A B : ℕ → ℕ → K) (n m : ℕ) :
    matMul ns A B n m = ∑ k ∈ range ns, A n k * B k m := by
  rw [matMul, forN_sum, zero_add]

theorem symGradUpd_adds (e : Elem K) (ns : ℕ) (wt : ℕ → K) (adj : ℕ → ℕ → ℕ → K)
    (convJac : (ℕ → K) → (ℕ → ℕ → K)) (jac1 : ℕ → ℕ → K) (CDw : ℕ → ℕ → ℕ → K) (u : ℕ → K)
    (i d k : ℕ) :
    Adds (symGradUpd e ns wt adj convJac jac1 CDw u i d k)
      ((∑ p ∈ range ns, ∑ q ∈ range ns, fun r c => if r = p * e.dof + k ∧ c = q * e.dof + i then
          getQEntry e d i k (adj i) (adj k) * jac1 p q else 0) +
        ∑ j ∈ range e.dof, ∑ d2 ∈ range e.dim, ∑ p ∈ range ns, ∑ q ∈ range ns, fun r c =>
          if r = p * e.dof + k ∧ c = q * e.dof + j then
            matMul ns (CDw d2) (convJac (row u e.dof j)) p q * (getQEntry e d i k (adj i) (adj k) *
              hinv e wt i * getQEntry e d2 i j (adj i) (adj j)) else 0) :=
  Adds.comp (b₁ := forN ns (fun sk => forN ns (fun si => addAt2 (sk * e.dof + k) (si * e.dof + i)
      (getQEntry e d i k (adj i) (adj k) * jac1 sk si))))
    (adds_block ns e.dof k i _)
    (Adds.forN fun j _ => Adds.forN fun _ _ => adds_block ns e.dof k j _)

theorem symGrad_bil (e : Elem K) (ns : ℕ) (alpha : K) (wt : ℕ → K) (adj : ℕ → ℕ → ℕ → K)
    (x : ℕ → ℕ → K) (convert : (ℕ → K) → (ℕ → K)) (convJac : (ℕ → K) → (ℕ → ℕ → K))
    (scaleJac : ℕ → (ℕ → K) → (ℕ → K) → (ℕ → ℕ → K) → (ℕ → ℕ → K))
    (scaleJacDw : ℕ → (ℕ → K) → (ℕ → K) → (ℕ → ℕ → K) → (ℕ → ℕ → ℕ → K)) (u a v : ℕ → K) :
    bil (ns * e.dof) (symGrad e ns alpha wt adj x convert convJac scaleJac scaleJacDw u) a v =
      alpha * ∑ i ∈ range e.dof, ∑ d ∈ range e.dim, ∑ s ∈ range ns,
        wk e adj d (fun k => a (s * e.dof + k)) i *
          ((∑ m ∈ range ns, scaleJac d (x i) (row u e.dof i) (calcDw e ns wt adj convert u i) s m *
              v (m * e.dof + i)) +
            ∑ d2 ∈ range e.dim, ∑ m ∈ range ns,
              scaleJacDw d (x i) (row u e.dof i) (calcDw e ns wt adj convert u i) d2 s m *
                (wk e adj d2 (fun j => ∑ q ∈ range ns, convJac (row u e.dof j) m q *
                  v (q * e.dof + j)) i * hinv e wt i)) := by
  have h := fun (i d k : ℕ) => symGradUpd_adds e ns wt adj convJac
    (scaleJac d (x i) (row u e.dof i) (calcDw e ns wt adj convert u i))
    (scaleJacDw d (x i) (row u e.dof i) (calcDw e ns wt adj convert u i)) u i d k
  have h2 := Adds.forN (n := e.dof) fun i _ => Adds.forN (n := e.dim) fun d _ =>
    Adds.forN (n := e.dof) fun k _ => h i d k
  have h0 : symGrad e ns alpha wt adj x convert convJac scaleJac scaleJacDw u = fun p q =>
      (forN e.dof (fun i => forN e.dim (fun d => forN e.dof (fun k =>
        symGradUpd e ns wt adj convJac
          (scaleJac d (x i) (row u e.dof i) (calcDw e ns wt adj convert u i))
          (scaleJacDw d (x i) (row u e.dof i) (calcDw e ns wt adj convert u i)) u i d k)))
        (fun _ _ => 0)) p q * alpha := rfl
  rw [h0, bil_smul, h2.apply, fun_zero_eq2, zero_add, mul_comm, bil_sum]
  congr 1
  refine sum_congr rfl fun i hi => ?_
  rw [mem_range] at hi
  rw [bil_sum]
  refine sum_congr rfl fun d _ => ?_
  rw [bil_sum]
  have h3 : ∀ k ∈ range e.dof, bil (ns * e.dof)
      ((∑ p ∈ range ns, ∑ q ∈ range ns, fun r c => if r = p * e.dof + k ∧ c = q * e.dof + i then
          getQEntry e d i k (adj i) (adj k) *
            scaleJac d (x i) (row u e.dof i) (calcDw e ns wt adj convert u i) p q else 0) +
        ∑ j ∈ range e.dof, ∑ d2 ∈ range e.dim, ∑ p ∈ range ns, ∑ q ∈ range ns, fun r c =>
          if r = p * e.dof + k ∧ c = q * e.dof + j then
            matMul ns (scaleJacDw d (x i) (row u e.dof i) (calcDw e ns wt adj convert u i) d2)
              (convJac (row u e.dof j)) p q * (getQEntry e d i k (adj i) (adj k) *
              hinv e wt i * getQEntry e d2 i j (adj i) (adj j)) else 0) a v =
      ∑ s ∈ range ns, getQEntry e d i k (adj i) (adj k) * a (s * e.dof + k) *
        ((∑ m ∈ range ns, scaleJac d (x i) (row u e.dof i) (calcDw e ns wt adj convert u i) s m *
              v (m * e.dof + i)) +
            ∑ d2 ∈ range e.dim, ∑ m ∈ range ns,
              scaleJacDw d (x i) (row u e.dof i) (calcDw e ns wt adj convert u i) d2 s m *
                (wk e adj d2 (fun j => ∑ q ∈ range ns, convJac (row u e.dof j) m q *
                  v (q * e.dof + j)) i * hinv e wt i)) := by
    intro k hk
    rw [mem_range] at hk
    rw [bil_add, bil_block ns e.dof k i hk hi, bil_sum]
    have h4 : ∀ j ∈ range e.dof, bil (ns * e.dof) (∑ d2 ∈ range e.dim, ∑ p ∈ range ns,
        ∑ q ∈ range ns, fun r c => if r = p * e.dof + k ∧ c = q * e.dof + j then
            matMul ns (scaleJacDw d (x i) (row u e.dof i) (calcDw e ns wt adj convert u i) d2)
              (convJac (row u e.dof j)) p q * (getQEntry e d i k (adj i) (adj k) *
              hinv e wt i * getQEntry e d2 i j (adj i) (adj j)) else 0) a v =
        ∑ s ∈ range ns, getQEntry e d i k (adj i) (adj k) * a (s * e.dof + k) *
          ∑ d2 ∈ range e.dim, ∑ m ∈ range ns,
            scaleJacDw d (x i) (row u e.dof i) (calcDw e ns wt adj convert u i) d2 s m *
              (getQEntry e d2 i j (adj i) (adj j) * (∑ q ∈ range ns, convJac (row u e.dof j) m q *
                  v (q * e.dof + j)) * hinv e wt i) := by
      intro j hj
      rw [mem_range] at hj
      rw [bil_sum, sum_congr rfl fun d2 _ => bil_block ns e.dof k j hk hj _ a v, sum_comm]
      refine sum_congr rfl fun s _ => ?_
      rw [mul_sum]
      refine sum_congr rfl fun d2 _ => ?_
      simp only [matMul_eq, sum_mul, mul_sum]
      rw [sum_comm]
      refine sum_congr rfl fun m _ => sum_congr rfl fun q _ => ?_
      ring
    rw [sum_congr rfl h4, sum_comm, ← sum_add_distrib]
    refine sum_congr rfl fun s _ => ?_
    rw [mul_add]
    congr 1
    · rw [mul_sum, mul_sum]
      exact sum_congr rfl fun m _ => by ring
    · rw [← mul_sum, sum_comm]
      congr 1
      refine sum_congr rfl fun d2 _ => ?_
      rw [sum_comm]
      refine sum_congr rfl fun m _ => ?_
      rw [wk, sum_mul, mul_sum]
  rw [sum_congr rfl h3, sum_comm]
  refine sum_congr rfl fun s _ => ?_
  rw [wk, sum_mul]

/-! ### boundary integrators -/

theorem vbVec_dot (f : Face K) (e : Elem K) (ns : ℕ) (alpha : K) (wt : ℕ → K)
    (adj : ℕ → ℕ → ℕ → K) (convert : (ℕ → K) → (ℕ → K))
    (flux : (ℕ → K) → (ℕ → K) → K → (ℕ → K) → (ℕ → ℕ → K) → (ℕ → K))
    (fluxDv : (ℕ → K) → (ℕ → K) → (ℕ → K) → (ℕ → ℕ → K)) (u a : ℕ → K)
    (hl : ∀ k < f.n, f.left k < e.dof) :
    dotV (ns * e.dof) a (vbVec f e ns alpha wt adj convert flux fluxDv u) =
      ∑ k ∈ range f.n, (alpha * f.w k * (∑ s ∈ range ns, a (s * e.dof + f.left k) *
          flux (f.x k) (f.nrm k) (wt (f.left k)) (row u e.dof (f.left k))
            (calcDw e ns wt adj convert u (f.left k)) s) +
        f.w k * ∑ d ∈ range e.dim, ∑ s ∈ range ns,
          wk e adj d (fun j => a (s * e.dof + j)) (f.left k) * hinv e wt (f.left k) *
            fluxDv (f.x k) (f.nrm k) (row u e.dof (f.left k)) s d) := by
  have h : ∀ k, Adds (vbVecBody f e ns alpha wt adj convert flux fluxDv u k)
      ((∑ s ∈ range ns, fun p => if p = s * e.dof + f.left k then alpha * (flux (f.x k) (f.nrm k)
        (wt (f.left k)) (row u e.dof (f.left k)) (calcDw e ns wt adj convert u (f.left k)) s * f.w k)
        else 0) + ∑ j ∈ range e.dof, ∑ d ∈ range e.dim, ∑ s ∈ range ns, fun p =>
          if p = s * e.dof + j then (getQEntry e d (f.left k) j (adj (f.left k)) (adj j) *
            (fluxDv (f.x k) (f.nrm k) (row u e.dof (f.left k)) s d * f.w k * hinv e wt (f.left k)))
          else 0) := fun k =>
    Adds.comp (b₁ := forN ns (fun s => addAt (s * e.dof + f.left k) (alpha * (flux (f.x k) (f.nrm k)
        (wt (f.left k)) (row u e.dof (f.left k)) (calcDw e ns wt adj convert u (f.left k)) s *
        f.w k)))) (Adds.forN fun _ _ => adds_addAt _ _)
      (Adds.forN fun _ _ => Adds.forN fun _ _ => Adds.forN fun _ _ => adds_addAt _ _)
  rw [vbVec, (Adds.forN fun k _ => h k).apply, fun_zero_eq, zero_add, dotV_sum]
  refine sum_congr rfl fun k hk => ?_
  have hi := hl k (mem_range.1 hk)
  rw [dotV_add]
  congr 1
  · rw [dotV_sum, mul_sum]
    refine sum_congr rfl fun s hs => ?_
    rw [dotV_single _ _ (flat_lt hi (mem_range.1 hs))]; ring
  · rw [dotV_sum]
    have h2 : ∀ j ∈ range e.dof, dotV (ns * e.dof) a (∑ d ∈ range e.dim, ∑ s ∈ range ns, fun p =>
          if p = s * e.dof + j then (getQEntry e d (f.left k) j (adj (f.left k)) (adj j) *
            (fluxDv (f.x k) (f.nrm k) (row u e.dof (f.left k)) s d * f.w k * hinv e wt (f.left k)))
          else 0) = ∑ d ∈ range e.dim, ∑ s ∈ range ns, f.w k *
            (getQEntry e d (f.left k) j (adj (f.left k)) (adj j) * a (s * e.dof + j) *
              hinv e wt (f.left k) * fluxDv (f.x k) (f.nrm k) (row u e.dof (f.left k)) s d) := by
      intro j hj
      rw [dotV_sum]
      refine sum_congr rfl fun d _ => ?_
      rw [dotV_sum]
      refine sum_congr rfl fun s hs => ?_
      rw [dotV_single _ _ (flat_lt (mem_range.1 hj) (mem_range.1 hs))]; ring
    rw [sum_congr rfl h2, sum_comm, mul_sum]
    refine sum_congr rfl fun d _ => ?_
    rw [sum_comm, mul_sum]
    refine sum_congr rfl fun s _ => ?_
    rw [wk, sum_mul, sum_mul, mul_sum]

theorem vbGrad_bil (f : Face K) (e : Elem K) (ns : ℕ) (wt : ℕ → K) (adj : ℕ → ℕ → ℕ → K)
    (convert : (ℕ → K) → (ℕ → K)) (convJac : (ℕ → K) → (ℕ → ℕ → K))
    (fluxJac : (ℕ → K) → (ℕ → K) → K → (ℕ → K) → (ℕ → ℕ → K) → (ℕ → ℕ → K))
    (fluxJacDw : (ℕ → K) → (ℕ → K) → K → (ℕ → K) → (ℕ → ℕ → K) → (ℕ → ℕ → ℕ → K))
    (fluxDvJac : (ℕ → K) → (ℕ → K) → (ℕ → K) → (ℕ → ℕ → ℕ → K)) (u a v : ℕ → K)
    (hl : ∀ k < f.n, f.left k < e.dof) :
    bil (ns * e.dof) (vbGrad f e ns wt adj convert convJac fluxJac fluxJacDw fluxDvJac u) a v =
      ∑ k ∈ range f.n, (f.w k * (∑ s ∈ range ns, a (s * e.dof + f.left k) *
          ((∑ m ∈ range ns, fluxJac (f.x k) (f.nrm k) (wt (f.left k)) (row u e.dof (f.left k))
              (calcDw e ns wt adj convert u (f.left k)) s m * v (m * e.dof + f.left k)) +
            ∑ d ∈ range e.dim, ∑ m ∈ range ns, fluxJacDw (f.x k) (f.nrm k) (wt (f.left k))
              (row u e.dof (f.left k)) (calcDw e ns wt adj convert u (f.left k)) d s m *
                (wk e adj d (fun j => ∑ q ∈ range ns, convJac (row u e.dof j) m q *
                  v (q * e.dof + j)) (f.left k) * hinv e wt (f.left k)))) +
        f.w k * ∑ d ∈ range e.dim, ∑ s ∈ range ns,
          wk e adj d (fun j => a (s * e.dof + j)) (f.left k) * hinv e wt (f.left k) *
            ∑ m ∈ range ns, fluxDvJac (f.x k) (f.nrm k) (row u e.dof (f.left k)) d s m *
              v (m * e.dof + f.left k)) := by
  have h : ∀ k, Adds (vbGradBody f e ns wt adj convert convJac fluxJac fluxJacDw fluxDvJac u k)
      ((∑ p ∈ range ns, ∑ q ∈ range ns, fun r c =>
          if r = p * e.dof + f.left k ∧ c = q * e.dof + f.left k then
            fluxJac (f.x k) (f.nrm k) (wt (f.left k)) (row u e.dof (f.left k))
              (calcDw e ns wt adj convert u (f.left k)) p q * f.w k else 0) +
        (∑ j ∈ range e.dof, ∑ d ∈ range e.dim, ∑ p ∈ range ns, ∑ q ∈ range ns, fun r c =>
          if r = p * e.dof + f.left k ∧ c = q * e.dof + j then
            matMul ns (fluxJacDw (f.x k) (f.nrm k) (wt (f.left k)) (row u e.dof (f.left k))
              (calcDw e ns wt adj convert u (f.left k)) d) (convJac (row u e.dof j)) p q *
              (hinv e wt (f.left k) * getQEntry e d (f.left k) j (adj (f.left k)) (adj j) * f.w k)
            else 0) +
        ∑ j ∈ range e.dof, ∑ d ∈ range e.dim, ∑ q ∈ range ns, ∑ p ∈ range ns, fun r c =>
          if r = p * e.dof + j ∧ c = q * e.dof + f.left k then
            f.w k * hinv e wt (f.left k) * getQEntry e d (f.left k) j (adj (f.left k)) (adj j) *
              fluxDvJac (f.x k) (f.nrm k) (row u e.dof (f.left k)) d p q else 0) := fun k =>
    Adds.comp (b₁ := fun M => forN e.dof (fun j => forN e.dim (fun d => forN ns (fun si =>
        forN ns (fun sj => addAt2 (si * e.dof + f.left k) (sj * e.dof + j)
        (matMul ns (fluxJacDw (f.x k) (f.nrm k) (wt (f.left k)) (row u e.dof (f.left k))
          (calcDw e ns wt adj convert u (f.left k)) d)
        (convJac (row u e.dof j)) si sj * (hinv e wt (f.left k) *
          getQEntry e d (f.left k) j (adj (f.left k)) (adj j) * f.w k))))))
        (forN ns (fun s1 => forN ns (fun s2 => addAt2 (s1 * e.dof + f.left k)
          (s2 * e.dof + f.left k) (fluxJac (f.x k) (f.nrm k) (wt (f.left k))
          (row u e.dof (f.left k)) (calcDw e ns wt adj convert u (f.left k)) s1 s2 * f.w k))) M))
      (Adds.comp (b₁ := forN ns (fun s1 => forN ns (fun s2 => addAt2 (s1 * e.dof + f.left k)
          (s2 * e.dof + f.left k) (fluxJac (f.x k) (f.nrm k) (wt (f.left k))
          (row u e.dof (f.left k)) (calcDw e ns wt adj convert u (f.left k)) s1 s2 * f.w k))))
        (adds_block ns e.dof _ _ _)
        (Adds.forN fun j _ => Adds.forN fun _ _ => adds_block ns e.dof _ j _))
      (Adds.forN fun _ _ => Adds.forN fun _ _ => Adds.forN fun _ _ => Adds.forN fun _ _ =>
        adds_addAt2 _ _ _)
  rw [vbGrad, (Adds.forN fun k _ => h k).apply, fun_zero_eq2, zero_add, bil_sum]
  refine sum_congr rfl fun k hk => ?_
  have hi := hl k (mem_range.1 hk)
  rw [bil_add, bil_add, bil_block _ _ _ _ hi hi]
  congr 1
  · rw [bil_sum]
    have h4 : ∀ j ∈ range e.dof, bil (ns * e.dof) (∑ d ∈ range e.dim, ∑ p ∈ range ns,
        ∑ q ∈ range ns, fun r c => if r = p * e.dof + f.left k ∧ c = q * e.dof + j then
            matMul ns (fluxJacDw (f.x k) (f.nrm k) (wt (f.left k)) (row u e.dof (f.left k))
              (calcDw e ns wt adj convert u (f.left k)) d) (convJac (row u e.dof j)) p q *
              (hinv e wt (f.left k) * getQEntry e d (f.left k) j (adj (f.left k)) (adj j) * f.w k)
            else 0) a v =
        ∑ s ∈ range ns, f.w k * a (s * e.dof + f.left k) *
          ∑ d ∈ range e.dim, ∑ m ∈ range ns,
            fluxJacDw (f.x k) (f.nrm k) (wt (f.left k)) (row u e.dof (f.left k))
              (calcDw e ns wt adj convert u (f.left k)) d s m *
              (getQEntry e d (f.left k) j (adj (f.left k)) (adj j) *
                (∑ q ∈ range ns, convJac (row u e.dof j) m q * v (q * e.dof + j)) *
                hinv e wt (f.left k)) := by
      intro j hj
      rw [mem_range] at hj
      rw [bil_sum, sum_congr rfl fun d _ => bil_block ns e.dof _ j hi hj _ a v, sum_comm]
      refine sum_congr rfl fun s _ => ?_
      rw [mul_sum]
      refine sum_congr rfl fun d _ => ?_
      simp only [matMul_eq, sum_mul, mul_sum]
      rw [sum_comm]
      refine sum_congr rfl fun m _ => sum_congr rfl fun q _ => ?_
      ring
    rw [sum_congr rfl h4, sum_comm, ← sum_add_distrib, mul_sum]
    refine sum_congr rfl fun s _ => ?_
    rw [mul_add, mul_add]
    refine congrArg₂ (· + ·) ?_ ?_
    · simp only [mul_sum]
      exact sum_congr rfl fun m _ => by ring
    · rw [← mul_sum, sum_comm, mul_assoc]
      congr 2
      refine sum_congr rfl fun d2 _ => ?_
      rw [sum_comm]
      refine sum_congr rfl fun m _ => ?_
      rw [wk, sum_mul, mul_sum]
  · rw [bil_sum]
    have h5 : ∀ j ∈ range e.dof, bil (ns * e.dof) (∑ d ∈ range e.dim, ∑ q ∈ range ns,
        ∑ p ∈ range ns, fun r c =>
          if r = p * e.dof + j ∧ c = q * e.dof + f.left k then
            f.w k * hinv e wt (f.left k) * getQEntry e d (f.left k) j (adj (f.left k)) (adj j) *
              fluxDvJac (f.x k) (f.nrm k) (row u e.dof (f.left k)) d p q else 0) a v =
        ∑ d ∈ range e.dim, ∑ s ∈ range ns, f.w k *
          (getQEntry e d (f.left k) j (adj (f.left k)) (adj j) * a (s * e.dof + j) *
            hinv e wt (f.left k) * ∑ m ∈ range ns,
              fluxDvJac (f.x k) (f.nrm k) (row u e.dof (f.left k)) d s m *
              v (m * e.dof + f.left k)) := by
      intro j hj
      rw [mem_range] at hj
      rw [bil_sum]
      refine sum_congr rfl fun d _ => ?_
      rw [sum_comm, bil_block ns e.dof j _ hj hi]
      refine sum_congr rfl fun s _ => ?_
      simp only [mul_sum]
      exact sum_congr rfl fun m _ => by ring
    rw [sum_congr rfl h5, sum_comm, mul_sum]
    refine sum_congr rfl fun d _ => ?_
    rw [sum_comm, mul_sum]
    refine sum_congr rfl fun s _ => ?_
    rw [wk, sum_mul, sum_mul, mul_sum]

theorem sfVec_dot (f : Face K) (e : Elem K) (ns : ℕ) (alpha : K) (wt : ℕ → K)
    (adj : ℕ → ℕ → ℕ → K) (convert : (ℕ → K) → (ℕ → K)) (convJac : (ℕ → K) → (ℕ → ℕ → K))
    (funJac : (ℕ → K) → (ℕ → K) → K → (ℕ → K) → (ℕ → ℕ → K) → (ℕ → K))
    (funJacDw : (ℕ → K) → (ℕ → K) → K → (ℕ → K) → (ℕ → ℕ → K) → (ℕ → ℕ → K)) (u v : ℕ → K)
    (hl : ∀ k < f.n, f.left k < e.dof) :
    dotV (ns * e.dof) v (sfVec f e ns alpha wt adj convert convJac funJac funJacDw u) =
      ∑ k ∈ range f.n, (alpha * (f.w k * ∑ m ∈ range ns, funJac (f.x k) (f.nrm k) (wt (f.left k))
          (row u e.dof (f.left k)) (calcDw e ns wt adj convert u (f.left k)) m *
            v (m * e.dof + f.left k)) +
        f.w k * ∑ d ∈ range e.dim, ∑ m ∈ range ns, funJacDw (f.x k) (f.nrm k) (wt (f.left k))
          (row u e.dof (f.left k)) (calcDw e ns wt adj convert u (f.left k)) m d *
            (wk e adj d (fun j => ∑ q ∈ range ns, convJac (row u e.dof j) m q *
                  v (q * e.dof + j)) (f.left k) * hinv e wt (f.left k))) := by
  have h : ∀ k, Adds (sfVecBody f e ns alpha wt adj convert convJac funJac funJacDw u k)
      ((∑ s ∈ range ns, fun p => if p = s * e.dof + f.left k then alpha * (funJac (f.x k) (f.nrm k)
        (wt (f.left k)) (row u e.dof (f.left k)) (calcDw e ns wt adj convert u (f.left k)) s * f.w k)
        else 0) + ∑ j ∈ range e.dof, ∑ d ∈ range e.dim, ∑ s1 ∈ range ns, ∑ s2 ∈ range ns, fun p =>
          if p = s2 * e.dof + j then convJac (row u e.dof j) s1 s2 *
            getQEntry e d (f.left k) j (adj (f.left k)) (adj j) *
            (funJacDw (f.x k) (f.nrm k) (wt (f.left k)) (row u e.dof (f.left k))
              (calcDw e ns wt adj convert u (f.left k)) s1 d * f.w k * hinv e wt (f.left k))
          else 0) := fun k =>
    Adds.comp (b₁ := forN ns (fun s => addAt (s * e.dof + f.left k) (alpha * (funJac (f.x k)
        (f.nrm k) (wt (f.left k)) (row u e.dof (f.left k)) (calcDw e ns wt adj convert u (f.left k))
        s * f.w k)))) (Adds.forN fun _ _ => adds_addAt _ _)
      (Adds.forN fun _ _ => Adds.forN fun _ _ => Adds.forN fun _ _ => Adds.forN fun _ _ =>
        adds_addAt _ _)
  rw [sfVec, (Adds.forN fun k _ => h k).apply, fun_zero_eq, zero_add, dotV_sum]
  refine sum_congr rfl fun k hk => ?_
  have hi := hl k (mem_range.1 hk)
  rw [dotV_add]
  congr 1
  · rw [dotV_sum, mul_sum, mul_sum]
    refine sum_congr rfl fun s hs => ?_
    rw [dotV_single _ _ (flat_lt hi (mem_range.1 hs))]; ring
  · rw [dotV_sum]
    have h2 : ∀ j ∈ range e.dof, dotV (ns * e.dof) v (∑ d ∈ range e.dim, ∑ s1 ∈ range ns,
        ∑ s2 ∈ range ns, fun p =>
          if p = s2 * e.dof + j then convJac (row u e.dof j) s1 s2 *
            getQEntry e d (f.left k) j (adj (f.left k)) (adj j) *
            (funJacDw (f.x k) (f.nrm k) (wt (f.left k)) (row u e.dof (f.left k))
              (calcDw e ns wt adj convert u (f.left k)) s1 d * f.w k * hinv e wt (f.left k))
          else 0) = ∑ d ∈ range e.dim, ∑ m ∈ range ns, f.w k *
            (funJacDw (f.x k) (f.nrm k) (wt (f.left k)) (row u e.dof (f.left k))
              (calcDw e ns wt adj convert u (f.left k)) m d *
              (getQEntry e d (f.left k) j (adj (f.left k)) (adj j) * (∑ q ∈ range ns,
                convJac (row u e.dof j) m q * v (q * e.dof + j)) * hinv e wt (f.left k))) := by
      intro j hj
      rw [dotV_sum]
      refine sum_congr rfl fun d _ => ?_
      rw [dotV_sum]
      refine sum_congr rfl fun m _ => ?_
      rw [dotV_sum]
      simp only [mul_sum, sum_mul]
      refine sum_congr rfl fun s hs => ?_
      rw [dotV_single _ _ (flat_lt (mem_range.1 hj) (mem_range.1 hs))]; ring
    rw [sum_congr rfl h2, sum_comm, mul_sum]
    refine sum_congr rfl fun d _ => ?_
    rw [sum_comm, mul_sum]
    refine sum_congr rfl fun s _ => ?_
    rw [wk, sum_mul, mul_sum, mul_sum]

end Verif.ViscousInteg
