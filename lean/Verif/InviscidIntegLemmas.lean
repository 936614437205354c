import Verif.InviscidInteg
import Verif.SbpLemmas
import Mathlib.Analysis.Calculus.Deriv.Add
import Mathlib.Analysis.Calculus.Deriv.Mul
import Mathlib.Analysis.Calculus.Deriv.Pow
import Mathlib.Tactic.FieldSimp

/-!
Closed forms of the element vectors and matrices of `InviscidInteg.lean`.
-/

namespace Verif.Inviscid
open Finset Verif.Sbp

variable {K : Type*} [Field K]

/-! ### flat indices -/

theorem flat_lt {N i n ns : ℕ} (hi : i < N) (hn : n < ns) : n * N + i < ns * N := by
  calc n * N + i < n * N + N := by omega
    _ = (n + 1) * N := by ring
    _ ≤ ns * N := Nat.mul_le_mul_right _ hn

theorem flat_div {N i n : ℕ} (hi : i < N) : (n * N + i) / N = n := by
  rw [mul_comm, Nat.mul_add_div (by omega), Nat.div_eq_of_lt hi, add_zero]

theorem flat_mod {N i n : ℕ} (hi : i < N) : (n * N + i) % N = i := by
  rw [mul_comm, Nat.mul_add_mod, Nat.mod_eq_of_lt hi]

theorem flat_iff {N i i' n n' : ℕ} (hi : i < N) (hi' : i' < N) :
    n * N + i = n' * N + i' ↔ n = n' ∧ i = i' := by
  constructor
  · intro h
    have h1 := congrArg (· / N) h
    have h2 := congrArg (· % N) h
    simp only [flat_div hi, flat_div hi', flat_mod hi, flat_mod hi'] at h1 h2
    exact ⟨h1, h2⟩
  · rintro ⟨rfl, rfl⟩; rfl

theorem flat_surj {N ns p : ℕ} (hp : p < ns * N) : ∃ n i, n < ns ∧ i < N ∧ p = n * N + i := by
  have hN : 0 < N := by
    rcases Nat.eq_zero_or_pos N with h | h
    · subst h; simp at hp
    · exact h
  refine ⟨p / N, p % N, ?_, Nat.mod_lt _ hN, ?_⟩
  · exact Nat.div_lt_of_lt_mul (by rwa [mul_comm])
  · rw [mul_comm]; exact (Nat.div_add_mod p N).symm

theorem sum_flat (ns N : ℕ) (f : ℕ → K) :
    ∑ p ∈ range (ns * N), f p = ∑ n ∈ range ns, ∑ i ∈ range N, f (n * N + i) := by
  induction ns with
  | zero => simp
  | succ ns ih => rw [add_mul, one_mul, sum_range_add, ih, sum_range_succ]

/-! ### sums of indicator terms -/

theorem sum_ind (N a : ℕ) (ha : a < N) (f : ℕ → K) :
    (∑ k ∈ range N, if k = a then f k else 0) = f a := by
  rw [sum_ite_eq']; simp [ha]

/-- Matrix-vector product with the first `len` entries. -/
def mulVec (len : ℕ) (M : ℕ → ℕ → K) (v : ℕ → K) (p : ℕ) : K := ∑ q ∈ range len, M p q * v q

theorem mulVec_add (len : ℕ) (A B : ℕ → ℕ → K) (v : ℕ → K) (p : ℕ) :
    mulVec len (A + B) v p = mulVec len A v p + mulVec len B v p := by
  simp [mulVec, add_mul, sum_add_distrib]

theorem mulVec_sum (len : ℕ) (s : Finset ℕ) (A : ℕ → ℕ → ℕ → K) (v : ℕ → K) (p : ℕ) :
    mulVec len (∑ k ∈ s, A k) v p = ∑ k ∈ s, mulVec len (A k) v p := by
  simp only [mulVec, Finset.sum_apply, sum_mul]
  rw [sum_comm]

theorem mulVec_single (len r c : ℕ) (hc : c < len) (x : K) (v : ℕ → K) (p : ℕ) :
    mulVec len (fun p q => if p = r ∧ q = c then x else 0) v p = if p = r then x * v c else 0 := by
  unfold mulVec
  by_cases h : p = r
  · simp only [h, true_and, if_true]
    rw [sum_eq_single c]
    · simp
    · intro b _ hb; simp [hb]
    · intro h; exact absurd (mem_range.2 hc) h
  · simp [h]

theorem mulVec_smul (len : ℕ) (A : ℕ → ℕ → K) (a : K) (v : ℕ → K) (p : ℕ) :
    mulVec len (fun p q => A p q * a) v p = mulVec len A v p * a := by
  simp only [mulVec, sum_mul]; exact sum_congr rfl fun q _ => by ring

/-! ### closed forms of the residuals -/

theorem packT_flat (N : ℕ) (alpha : K) (r : ℕ → ℕ → K) (n i : ℕ) (hi : i < N) :
    packT N alpha r (n * N + i) = alpha * r n i := by
  rw [packT, flat_div hi, flat_mod hi]

theorem weakLoop_eq (e : Elem K) (ns : ℕ) (f : ℕ → ℕ → ℕ → K) (D : ℕ) (M : ℕ → ℕ → K) (n i : ℕ)
    (hn : n < ns) (hi : i < e.dof) :
    forN D (fun di elres => multWeakOperator e ns di true (f di) elres) M n i =
      M n i - ∑ di ∈ range D, ∑ j ∈ range e.dof, e.Q di i j * f di n j := by
  induction D with
  | zero => simp [forN]
  | succ D ih => rw [forN_succ, multWeakT_eq e ns D _ _ n i hn hi, ih, sum_range_succ]; ring

theorem weakVec_eq (e : Elem K) (ns : ℕ) (alpha : K) (flux : (ℕ → K) → (ℕ → K) → (ℕ → K))
    (adj : ℕ → ℕ → ℕ → K) (u : ℕ → K) (n i : ℕ) (hn : n < ns) (hi : i < e.dof) :
    weakVec e ns alpha flux adj u (n * e.dof + i) =
      -(alpha * ∑ di ∈ range e.dim, ∑ j ∈ range e.dof,
        e.Q di i j * flux (adjRow adj j di) (row u e.dof j) n) := by
  rw [weakVec, packT_flat _ _ _ _ _ hi, weakLoop_eq e ns _ e.dim _ n i hn hi]
  simp

/-- Inner product of the first `len` entries. -/
def dotV (len : ℕ) (a r : ℕ → K) : K := ∑ p ∈ range len, a p * r p

theorem dotV_add (len : ℕ) (a r s : ℕ → K) : dotV len a (r + s) = dotV len a r + dotV len a s := by
  simp [dotV, mul_add, sum_add_distrib]

theorem dotV_sum (len : ℕ) (a : ℕ → K) (s : Finset ℕ) (f : ℕ → ℕ → K) :
    dotV len a (∑ k ∈ s, f k) = ∑ k ∈ s, dotV len a (f k) := by
  simp only [dotV, Finset.sum_apply, mul_sum]
  rw [sum_comm]

theorem dotV_single (len c : ℕ) (hc : c < len) (a : ℕ → K) (x : K) :
    dotV len a (fun p => if p = c then x else 0) = a c * x := by
  unfold dotV
  rw [sum_eq_single c]
  · simp
  · intro b _ hb; simp [hb]
  · intro h; exact absurd (mem_range.2 hc) h

theorem dotV_zero (len : ℕ) (a : ℕ → K) : dotV len a (0 : ℕ → K) = 0 := by simp [dotV]

theorem dotV_flat (ns N : ℕ) (a r : ℕ → K) :
    dotV (ns * N) a r = ∑ n ∈ range ns, ∑ i ∈ range N, a (n * N + i) * r (n * N + i) :=
  sum_flat ns N _

theorem adds_dyadicUpd (N i j n : ℕ) (x : K) :
    Adds (dyadicUpd N i j n x) ((fun p => if p = n * N + i then x else 0) +
      fun p => if p = n * N + j then -x else 0) :=
  Adds.comp (b₁ := addAt (n * N + i) x) (b₂ := addAt (n * N + j) (-x))
    (adds_addAt (n * N + i) x) (adds_addAt (n * N + j) (-x))

theorem fun_zero_eq : (fun _ : ℕ => (0 : K)) = 0 := rfl
theorem fun_zero_eq2 : (fun _ _ : ℕ => (0 : K)) = 0 := rfl

theorem dyadic_loops (e : Elem K) (ns : ℕ) (x : ℕ → ℕ → ℕ → ℕ → K) :
    Adds (forN e.dof (fun i => forFromTo (i + 1) e.dof (fun j => forN e.dim (fun di =>
      forN ns (fun n => dyadicUpd e.dof i j n (x i j di n))))))
    (∑ i ∈ range e.dof, ∑ j ∈ Ico (i + 1) e.dof, ∑ di ∈ range e.dim, ∑ n ∈ range ns,
      ((fun p => if p = n * e.dof + i then x i j di n else 0) +
      fun p => if p = n * e.dof + j then -x i j di n else 0)) :=
  Adds.forN fun i _ => Adds.forFromTo fun j _ _ => Adds.forN fun _ _ => Adds.forN fun n _ =>
    adds_dyadicUpd e.dof i j n _

/-- Testing the dyadic residual with any vector. -/
theorem dyadic_dot (e : Elem K) (ns : ℕ) (alpha : K) (flux : ℕ → (ℕ → K) → (ℕ → K) → (ℕ → K))
    (adj : ℕ → ℕ → ℕ → K) (u a : ℕ → K) :
    dotV (ns * e.dof) a (dyadicVec e ns alpha flux adj u) =
      ∑ i ∈ range e.dof, ∑ j ∈ Ico (i + 1) e.dof, ∑ di ∈ range e.dim, ∑ n ∈ range ns,
        (a (n * e.dof + i) - a (n * e.dof + j)) *
          (getSkewEntry e di i j (adj i) (adj j) * alpha *
            flux di (row u e.dof i) (row u e.dof j) n) := by
  rw [dyadicVec, (dyadic_loops e ns _).apply, fun_zero_eq, zero_add]
  rw [dotV_sum]
  refine sum_congr rfl fun i hi => ?_
  rw [dotV_sum]
  refine sum_congr rfl fun j hj => ?_
  rw [dotV_sum]
  refine sum_congr rfl fun di _ => ?_
  rw [dotV_sum]
  refine sum_congr rfl fun n hn => ?_
  rw [mem_range] at hi hn; rw [mem_Ico] at hj
  rw [dotV_add, dotV_single _ _ (flat_lt hi hn), dotV_single _ _ (flat_lt hj.2 hn)]
  ring

theorem dotV_indicator (len p : ℕ) (hp : p < len) (r : ℕ → K) :
    dotV len (fun q => if q = p then 1 else 0) r = r p := by
  unfold dotV
  rw [sum_eq_single p]
  · simp
  · intro b _ hb; simp [hb]
  · intro h; exact absurd (mem_range.2 hp) h


/-! ### triangular loops -/

theorem sum_upper (N : ℕ) (g : ℕ → ℕ → K) :
    ∑ i ∈ range N, ∑ j ∈ Ico i N, (g i j + if i = j then 0 else g j i) =
      ∑ i ∈ range N, ∑ j ∈ range N, g i j := by
  induction N with
  | zero => simp
  | succ N ih =>
    have h1 : ∀ i ∈ range N, ∑ j ∈ Ico i (N + 1), (g i j + if i = j then 0 else g j i) =
        (∑ j ∈ Ico i N, (g i j + if i = j then 0 else g j i)) + (g i N + g N i) := by
      intro i hi
      rw [mem_range] at hi
      rw [sum_Ico_succ_top (by omega), if_neg (by omega)]
    rw [sum_range_succ, sum_congr rfl h1, sum_add_distrib, ih]
    simp only [sum_range_succ, sum_add_distrib]
    have : Ico N (N + 1) = {N} := by ext x; simp
    rw [this, sum_singleton]; simp; ring

theorem sum_strict_upper (N : ℕ) (g : ℕ → ℕ → K) :
    ∑ i ∈ range N, ∑ j ∈ Ico (i + 1) N, (g i j + g j i) =
      ∑ i ∈ range N, ∑ j ∈ range N, if i = j then 0 else g i j := by
  rw [← sum_upper N (fun i j => if i = j then 0 else g i j)]
  refine sum_congr rfl fun i hi => ?_
  rw [mem_range] at hi
  rw [sum_eq_sum_Ico_succ_bot hi]
  simp only [if_true, zero_add]
  refine sum_congr rfl fun j hj => ?_
  rw [mem_Ico] at hj
  rw [if_neg (by omega), if_neg (by omega), if_neg (by omega)]

/-! ### face, boundary and mass residuals -/

theorem bndVec_loops (f : Face K) (N ns : ℕ) (x : ℕ → ℕ → K) :
    Adds (forN f.n (fun i => forN ns (fun n => addAt (n * N + f.left i) (x i n))))
      (∑ i ∈ range f.n, ∑ n ∈ range ns, fun p => if p = n * N + f.left i then x i n else 0) :=
  Adds.forN fun _ _ => Adds.forN fun _ _ => adds_addAt _ _

theorem bnd_dot (f : Face K) (N ns : ℕ) (alpha : K)
    (flux : (ℕ → K) → (ℕ → K) → (ℕ → K) → (ℕ → K)) (u a : ℕ → K)
    (hl : ∀ i < f.n, f.left i < N) :
    dotV (ns * N) a (bndVec f N ns alpha flux u) =
      alpha * ∑ i ∈ range f.n, f.w i * ∑ n ∈ range ns,
        a (n * N + f.left i) * flux (f.x i) (f.nrm i) (row u N (f.left i)) n := by
  rw [bndVec, (bndVec_loops f N ns _).apply, fun_zero_eq, zero_add, dotV_sum, mul_sum]
  refine sum_congr rfl fun i hi => ?_
  rw [mem_range] at hi
  rw [dotV_sum, mul_sum, mul_sum]
  refine sum_congr rfl fun n hn => ?_
  rw [dotV_single _ _ (flat_lt (hl i hi) (mem_range.1 hn))]
  ring

/-- Index of the right element's entry in the joint vector. -/
theorem right_lt {NL NR ns n r : ℕ} (hr : r < NR) (hn : n < ns) :
    NL * ns + (n * NR + r) < ns * (NL + NR) := by
  have := flat_lt hr hn
  nlinarith

theorem left_lt {NL NR ns n l : ℕ} (hl : l < NL) (hn : n < ns) :
    n * NL + l < ns * (NL + NR) := by
  have := flat_lt hl hn
  nlinarith [Nat.zero_le (ns * NR)]

theorem faceVec_loops (f : Face K) (NL NR ns : ℕ) (x : ℕ → ℕ → K) :
    Adds (forN f.n (fun i => forN ns (fun n v =>
      addAt (NL * ns + (n * NR + f.right i)) (-x i n) (addAt (n * NL + f.left i) (x i n) v))))
      (∑ i ∈ range f.n, ∑ n ∈ range ns, ((fun p => if p = n * NL + f.left i then x i n else 0) +
        fun p => if p = NL * ns + (n * NR + f.right i) then -x i n else 0)) :=
  Adds.forN fun i _ => Adds.forN fun n _ =>
    Adds.comp (b₁ := addAt (n * NL + f.left i) (x i n))
      (b₂ := addAt (NL * ns + (n * NR + f.right i)) (-x i n))
      (adds_addAt _ _) (adds_addAt _ _)

theorem face_dot (f : Face K) (NL NR ns : ℕ) (alpha : K)
    (flux : (ℕ → K) → (ℕ → K) → (ℕ → K) → (ℕ → K)) (u a : ℕ → K)
    (hl : ∀ i < f.n, f.left i < NL) (hr : ∀ i < f.n, f.right i < NR) :
    dotV (ns * (NL + NR)) a (faceVec f NL NR ns alpha flux u) =
      alpha * ∑ i ∈ range f.n, ∑ n ∈ range ns,
        (a (n * NL + f.left i) - a (NL * ns + (n * NR + f.right i))) *
          flux (scaleNrm (f.w i) (f.nrm i)) (row u NL (f.left i))
            (rowRight u ns NL NR (f.right i)) n := by
  have h := (faceVec_loops f NL NR ns (fun i n => alpha * flux (scaleNrm (f.w i) (f.nrm i))
    (row u NL (f.left i)) (rowRight u ns NL NR (f.right i)) n)).apply (fun _ => 0)
  have h2 : faceVec f NL NR ns alpha flux u = _ := h
  rw [h2, fun_zero_eq, zero_add, dotV_sum, mul_sum]
  refine sum_congr rfl fun i hi => ?_
  rw [mem_range] at hi
  rw [dotV_sum, mul_sum]
  refine sum_congr rfl fun n hn => ?_
  rw [mem_range] at hn
  rw [dotV_add, dotV_single _ _ (left_lt (hl i hi) hn), dotV_single _ _ (right_lt (hr i hi) hn)]
  ring

theorem massVec_loops (N ns : ℕ) (x : ℕ → ℕ → K) :
    Adds (forN N (fun i => forN ns (fun n => addAt (n * N + i) (x i n))))
      (∑ i ∈ range N, ∑ n ∈ range ns, fun p => if p = n * N + i then x i n else 0) :=
  Adds.forN fun _ _ => Adds.forN fun _ _ => adds_addAt _ _

theorem massVec_eq (N ns : ℕ) (alpha : K) (w : ℕ → K) (convert : (ℕ → K) → (ℕ → K)) (u : ℕ → K)
    (n i : ℕ) (hn : n < ns) (hi : i < N) :
    massVec N ns alpha w convert u (n * N + i) = alpha * (w i * convert (row u N i) n) := by
  rw [massVec, (massVec_loops N ns _).apply, fun_zero_eq, zero_add]
  simp only [Finset.sum_apply]
  rw [sum_eq_single i, sum_eq_single n]
  · simp; ring
  · intro b _ hb; rw [if_neg]; rw [flat_iff hi hi]; exact fun h => hb h.1.symm
  · intro h; exact absurd (mem_range.2 hn) h
  · intro b hb hb'; rw [mem_range] at hb
    refine sum_eq_zero fun m _ => ?_
    rw [if_neg]; rw [flat_iff hi hb]; exact fun h => hb' h.2.symm
  · intro h; exact absurd (mem_range.2 hi) h

theorem lpsVec_eq (e : Elem K) (ns : ℕ) (alpha lps : K) (convert : (ℕ → K) → (ℕ → K))
    (scale : ℕ → (ℕ → K) → (ℕ → K) → (ℕ → K)) (u : ℕ → K) (n i : ℕ) (hn : n < ns)
    (hi : i < e.dof) :
    lpsVec e ns alpha lps convert scale u (n * e.dof + i) =
      alpha * ∑ k ∈ range e.dof, getProjOperatorEntry e k i * (e.H k *
        (scale k (row u e.dof k) (fun m => lpsPw e ns convert u m k) n * lps)) := by
  rw [lpsVec]
  rw [packT_flat _ _ _ _ _ hi, multProjT_eq _ _ _ _ _ hn hi]
  congr 1
  refine sum_congr rfl fun k hk => ?_
  rw [multNormMatrix, if_pos ⟨hn, mem_range.1 hk⟩]

theorem lpsPw_eq (e : Elem K) (ns : ℕ) (convert : (ℕ → K) → (ℕ → K)) (u : ℕ → K) (n i : ℕ)
    (hn : n < ns) (hi : i < e.dof) :
    lpsPw e ns convert u n i =
      ∑ j ∈ range e.dof, getProjOperatorEntry e i j * convert (row u e.dof j) n := by
  rw [lpsPw, multProj_eq _ _ _ _ _ hn hi]

end Verif.Inviscid
