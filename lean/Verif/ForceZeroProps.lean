import Verif.ForceZero
import Verif.ForceProps
import Mathlib.LinearAlgebra.Matrix.Notation

/-!
Property C132 where the flux density vanishes: the virtual-work value is a finite number exactly if it vanishes at no quadrature point.
-/

namespace Verif.Force
open Finset Verif.Sbp Verif.Dense Verif.Diffusion Verif.Losses

variable {ndof dim m n : ℕ}

theorem foldl_none {α : Type*} (f : α → Option ℝ) (l : List α) : l.foldl (fun s i => addN s (f i)) none = none := by
  induction l with
  | nil => rfl
  | cons a l ih => simpa [addN] using ih

theorem foldl_none' {α : Type*} (f : α → Option ℝ) (l : List α) (i : α) (hi : i ∈ l) (h : f i = none) (s : Option ℝ) :
    l.foldl (fun s i => addN s (f i)) s = none := by
  induction l generalizing s with
  | nil => simp at hi
  | cons a l ih =>
    rw [List.foldl_cons]
    rcases List.mem_cons.1 hi with rfl | h'
    · rw [h]; cases s <;> exact foldl_none f l
    · exact ih h' _

theorem foldl_some {α : Type*} (f : α → ℝ) (l : List α) (s : ℝ) :
    l.foldl (fun s i => addN s (some (f i))) (some s) = some (s + (l.map f).sum) := by
  induction l generalizing s with
  | nil => simp
  | cons a l ih =>
    rw [List.foldl_cons]
    have : addN (some s) (some (f a)) = some (s + f a) := rfl
    rw [this, ih, List.map_cons, List.sum_cons, add_assoc]

theorem sumN_some {k : ℕ} (f : Fin k → ℝ) : sumN (fun i => some (f i)) = some (∑ i, f i) := by
  unfold sumN
  rw [foldl_some, zero_add, ← List.sum_ofFn, List.ofFn_eq_map]

theorem sumN_none {k : ℕ} (f : Fin k → Option ℝ) (i : Fin k) (h : f i = none) : sumN f = none :=
  foldl_none' f _ i (List.mem_finRange i) h _

theorem dBdsN_some (p : FPt ndof dim m) (u : Vec ndof) (X : Mat m dim) (hJ : p.J ≠ 0) (hn : norm2 (p.bvec u) ≠ 0) :
    p.dBdsN u X = some (p.dBds u X) := by
  have e : ∀ i j, p.dbdJN u i j = some (p.dbdJ u i j) := by
    intro i j
    unfold FPt.dbdJN FPt.dbdJ
    by_cases hd : dim = 3
    · simp only [if_pos hd, divN, if_neg (pow_ne_zero 2 hJ), if_neg (mul_ne_zero hJ hn), mulN, addN, Option.map_some,
        Option.bind_some, addM, transpose, vwt, zeroM]
      congr 1; ring
    · simp only [if_neg hd, divN, if_neg (mul_ne_zero hn (pow_ne_zero 2 hJ)), mulN, Option.map_some, addVWt, zeroM]
      congr 1; ring
  unfold FPt.dBdsN FPt.dBds
  simp only [e, mulN, Option.map_some, sumN_some]
  congr 1
  refine sum_congr rfl fun j _ => sum_congr rfl fun k _ => ?_
  simp [addABt, zeroM]

theorem dBdsN_none (p : FPt ndof dim m) (u : Vec ndof) (X : Mat m dim) (j : Fin m) (k : Fin dim) (hn : norm2 (p.bvec u) = 0) :
    p.dBdsN u X = none := by
  have e : p.dbdJN u k k = none := by
    unfold FPt.dbdJN
    by_cases hd : dim = 3
    · simp only [if_pos hd, divN, hn, mul_zero, if_true, mulN, Option.map_none, addN]
      cases (if p.J ^ 2 = 0 then none else some (-0 / p.J ^ 2) : Option ℝ) <;> rfl
    · simp only [if_neg hd, divN, hn, zero_mul, if_true, mulN, Option.map_none]
  refine sumN_none _ j (sumN_none _ k ?_)
  rw [sumN_none _ k (by rw [e]; rfl)]; rfl

theorem forN_none (n : ℕ) (g : ℕ → Option ℝ) (i : ℕ) (hi : i < n) (h : g i = none) (s : Option ℝ) :
    forN n (fun i s => addN s (g i)) s = none := by
  induction n with
  | zero => omega
  | succ n ih =>
    rw [forN_succ]
    by_cases e : i = n
    · subst e; rw [h]; cases forN i (fun i s => addN s (g i)) s <;> rfl
    · rw [ih (by omega)]; rfl

/-- **C132** Where the flux density vanishes at no quadrature point the result is a finite number: the value the virtual-work theorem
speaks about. -/
theorem C132_finite (inBody : Bool) (E : ℕ → En) (pt : ℕ → FPt ndof dim m) (X : Mat m dim) (u : Vec ndof)
    (hJ : ∀ i < n, (pt i).J ≠ 0) (hb : ∀ i < n, norm2 ((pt i).bvec u) ≠ 0) :
    forceN inBody n E pt X u = some (force inBody n E pt X u) := by
  unfold forceN force
  split_ifs with h1 h2
  · rfl
  · rfl
  · induction n with
    | zero => rfl
    | succ n ih =>
      rw [forN_succ, forN_succ, ih (fun i h => hJ i (by omega)) fun i h => hb i (by omega)]
      simp only [dBdsN_some _ u X (hJ n (by omega)) (hb n (by omega)), divN, if_neg (hJ n (by omega)), mulN, addN,
        Option.map_some, Option.bind_some, FPt.bmag]
      congr 1; ring

/-- **C132** Outside the body and where the virtual displacement counts, a single quadrature point without flux makes the element's
contribution - hence the whole force or torque - not a number. -/
theorem C132_zero_flux (E : ℕ → En) (pt : ℕ → FPt ndof dim m) (X : Mat m dim) (u : Vec ndof)
    (hX : ∃ j k, 1 / 10 ^ 14 ≤ |X j k|) (i : ℕ) (hi : i < n) (hb : (pt i).bvec u = 0) :
    forceN false n E pt X u = none := by
  obtain ⟨j, k, hjk⟩ := hX
  have ht : ¬ tiny X := fun h => absurd (h j k) (not_lt.2 hjk)
  have hn : norm2 ((pt i).bvec u) = 0 := (norm2_eq_zero _).2 fun k => by rw [hb]; rfl
  unfold forceN
  rw [if_neg (by simp), if_neg ht]
  refine forN_none n (fun i => mulN (mulN ((divN (norm2 ((pt i).bvec u)) (pt i).J).bind fun s =>
    addN (mulN ((pt i).dBdsN u X) ((E i).e1 s)) (some ((E i).e s * (pt i).tr X))) ((pt i).w * (pt i).J)) (-1)) i hi ?_ _
  rw [dBdsN_none _ u X j k hn]
  cases divN (norm2 ((pt i).bvec u)) (pt i).J <;> rfl

/-- **C132** is false as stated: in the field-free state the magnetic energy does not depend on the displacement - its derivative is zero -
but the force the code computes is not a number, for every element outside the body with at least one quadrature point and every virtual
displacement that counts. -/
theorem C132_zero_flux_false (hn : 0 < n) (E : ℕ → En) (hE : ∀ i < n, (E i).e 0 = 0) (w : ℕ → ℝ) (cs : ℕ → Mat ndof 2)
    (dshape : ℕ → Mat m 2) (X V : Mat m 2) (hV : ∃ j k, 1 / 10 ^ 14 ≤ |V j k|) :
    HasDerivAt (fun s => -energy2 n E w cs dshape 0 (displaced X V s)) 0 0 ∧
      forceN false n E (elem2 w cs dshape X) V 0 = none := by
  constructor
  · have e : (fun s => -energy2 n E w cs dshape 0 (displaced X V s)) = fun _ => 0 := by
      funext s
      unfold energy2
      rw [neg_eq_zero]
      refine sum_eq_zero fun i hi => ?_
      have : flux2 (cs i) (jacOf (dshape i) (displaced X V s)) (0 : Vec ndof) = 0 := by
        funext k; simp [flux2]
      rw [this, (norm2_eq_zero (0 : Vec 2)).2 fun _ => rfl, hE i (mem_range.1 hi), mul_zero]
    rw [e]; exact hasDerivAt_const _ _
  · refine C132_zero_flux E _ V 0 hV 0 hn ?_
    funext k; simp [bvec2_eq, mulTV]

/-- The energy density the code computes from a reluctivity vanishes without flux. -/
theorem ofNu_zero (ns : ℕ) (xs ws : ℕ → ℝ) (nu dnu d2nu : ℝ → ℝ) : (En.ofNu ns xs ws nu dnu d2nu).e 0 = 0 := by
  simp [En.ofNu, energy]

/-- Non-vacuity: a one-point triangle moved at one node, constant reluctivity. -/
example : forceN false 1 (fun _ => En.ofNu 1 (fun _ => 1 / 2) (fun _ => 1) (fun _ => 1) (fun _ => 0) fun _ => 0)
    (elem2 (fun _ => 1 / 2) (fun _ => fun (r : Fin 3) l => !![-1, -1; 1, 0; 0, 1] r l)
      (fun _ => fun (j : Fin 3) l => !![-1, -1; 1, 0; 0, 1] j l) fun j k => !![0, 0; 1, 0; 0, 1] j k)
    (fun j _ => if j = 0 then 1 else 0) 0 = none :=
  (C132_zero_flux_false Nat.one_pos _ (fun _ _ => ofNu_zero ..) _ _ _ _ _ ⟨0, 0, by norm_num⟩).2

end Verif.Force
