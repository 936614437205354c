import Verif.Warper
import Mathlib.Algebra.Field.Rat
import Mathlib.Data.Rat.Defs
import Mathlib.Tactic.Ring
import Mathlib.Tactic.NormNum
import Mathlib.Tactic.FinCases
import Mathlib.LinearAlgebra.Matrix.Notation

/-! # Mesh warper: property theorems (C45, C46) -/

namespace Verif.Warper

open Matrix

variable {K : Type} {n m : ℕ}

theorem foldl_update_notin {α β : Type} [DecidableEq α] (ks : List β) (f : β → α) (g : (α → K) → β → K) (v : α → K) (a : α) (h : ∀ k ∈ ks, f k ≠ a) :
    (ks.foldl (fun v k => Function.update v (f k) (g v k)) v) a = v a := by
  induction ks generalizing v with
  | nil => rfl
  | cons k ks ih =>
    rw [List.foldl_cons, ih _ (fun j hj => h j (List.mem_cons_of_mem _ hj)), Function.update_of_ne (Ne.symm (h k (by simp)))]

/-- Writing through an injective index map: each target is written once. -/
theorem foldl_update_in {α β : Type} [DecidableEq α] [DecidableEq β] (ks : List β) (hnd : ks.Nodup) (f : β → α) (hf : Function.Injective f) (g : (α → K) → β → K)
    (hg : ∀ v w k, v (f k) = w (f k) → g v k = g w k) (v : α → K) (k : β) (hk : k ∈ ks) :
    (ks.foldl (fun v k => Function.update v (f k) (g v k)) v) (f k) = g v k := by
  induction ks generalizing v with
  | nil => simp at hk
  | cons j ks ih =>
    obtain ⟨hj, hnd'⟩ := List.nodup_cons.1 hnd
    rw [List.foldl_cons]
    by_cases hkj : k = j
    · subst hkj
      rw [foldl_update_notin _ _ _ _ _ (fun q hq e => hj (by rw [← hf e]; exact hq)), Function.update_self]
    · have hk' : k ∈ ks := by
        rcases List.mem_cons.1 hk with e | e
        · exact absurd e hkj
        · exact e
      rw [ih hnd' _ hk']
      apply hg
      rw [Function.update_of_ne (fun e => hkj (hf e))]

/-! ## C45 -/

/-- The residual with prescribed surface coordinates is `state - surface` on the surface and the form's residual elsewhere. -/
theorem C45_residual_rows [Ring K] (idx : Fin m → Fin n) (hinj : Function.Injective idx) (nl state : Vec n K) (s : Vec m K) :
    (∀ i, evaluate idx nl state (some s) (idx i) = state (idx i) - s i) ∧ ∀ j, (∀ i, idx i ≠ j) → evaluate idx nl state (some s) j = nl j := by
  constructor
  · intro i
    exact foldl_update_in _ (List.nodup_finRange m) idx hinj (fun _ i => state (idx i) - s i) (fun _ _ _ _ => rfl) nl i (List.mem_finRange i)
  · intro j hj
    exact foldl_update_notin _ idx (fun _ i => state (idx i) - s i) nl j (fun k _ => hj k)

/-- C45.  If the essential dofs of the elasticity form contain the surface dofs, then after any number of Newton iterations (with any step scaling, exact linear
solves, any elasticity operator) the volume coordinates on the surface are exactly the surface coordinates the client prescribed. -/
theorem C45_surface_prescribed_partial [Field K] (R : Vec n K → Vec n K) (J : Vec n K → Matrix (Fin n) (Fin n) K) (ess : Fin n → Prop) [DecidablePred ess]
    (idx : Fin m → Fin n) (hinj : Function.Injective idx) (hess : ∀ i, ess (idx i)) (vol : Vec n K) (surf : Vec m K) (k : ℕ) (y : Vec n K)
    (hN : Newton R J ess k (setSurface idx vol surf) y) (i : Fin m) : y (idx i) = surf i := by
  have hpres : ∀ k x, Newton R J ess k x y → ∀ j, ess j → y j = x j := by
    intro k x h
    induction h with
    | done x => intro j _; rfl
    | step k x c y a hs _ ih =>
      intro j hj
      rw [ih hN j hj]
      have := congrFun hs j
      have hz : c j = 0 := by
        rw [mulVec, dotProduct] at this
        simp only [elim, hj, true_or, if_true, zeroEss] at this
        simpa using this
      simp [hz]
  rw [hpres k _ hN _ (hess i)]
  exact foldl_update_in _ (List.nodup_finRange m) idx hinj (fun _ i => surf i) (fun _ _ _ _ => rfl) vol i (List.mem_finRange i)

/-- Non-vacuity: two dofs, dof 0 on the surface, one Newton step of a coupled linear operator. -/
example : ∃ y, Newton (K := ℚ) (fun x i => if i = 0 then x 0 - x 1 else x 1 - x 0) (fun _ => !![1, -1; -1, 1]) (fun i => i = 0) 1
    (setSurface (fun _ : Fin 1 => 0) (fun _ => 5) (fun _ => 7)) y ∧ y 0 = 7 ∧ y 1 = 7 := by
  refine ⟨_, Newton.step 0 _ (fun i => if i = 0 then 0 else -2) _ 1 ?_ (Newton.done _), ?_, ?_⟩
  · funext i; fin_cases i <;> decide +kernel
  · decide +kernel
  · decide +kernel

/-- Without the `bcs/essential` option the form has no essential dofs and the warp moves the surface: the property is false in general. -/
theorem C45_false_without_essential : ∃ y, Newton (K := ℚ) (n := 1) (fun x => x) (fun _ => 1) (fun _ => False) 1 (setSurface (fun _ : Fin 1 => 0) (fun _ => 5) (fun _ => 7)) y ∧ y 0 ≠ 7 := by
  refine ⟨_, Newton.step 0 _ (fun _ => 7) _ 1 ?_ (Newton.done _), ?_⟩
  · funext i; fin_cases i; decide +kernel
  · decide +kernel

/-- The forward product with respect to the surface coordinates is the exact change of the residual, accumulated. -/
theorem C45_surface_jvp_exact [CommRing K] (idx : Fin m → Fin n) (hinj : Function.Injective idx) (nl state : Vec n K) (s d : Vec m K) (acc : Vec n K) :
    jvpSurf idx d acc - acc = evaluate idx nl state (some (s + d)) - evaluate idx nl state (some s) := by
  funext j
  simp only [Pi.sub_apply]
  by_cases h : ∃ i, idx i = j
  · obtain ⟨i, rfl⟩ := h
    rw [(C45_residual_rows idx hinj nl state (s + d)).1, (C45_residual_rows idx hinj nl state s).1]
    have : jvpSurf idx d acc (idx i) = acc (idx i) - d i :=
      foldl_update_in _ (List.nodup_finRange m) idx hinj (fun r i => r (idx i) - d i) (fun v w k e => by rw [e]) acc i (List.mem_finRange i)
    rw [this]
    simp only [Pi.add_apply]
    ring
  · have h' : ∀ i, idx i ≠ j := fun i e => h ⟨i, e⟩
    rw [(C45_residual_rows idx hinj nl state (s + d)).2 j h', (C45_residual_rows idx hinj nl state s).2 j h']
    have : jvpSurf idx d acc j = acc j := foldl_update_notin _ idx (fun r i => r (idx i) - d i) acc j (fun k _ => h' k)
    rw [this]
    ring

theorem vjpSurf_apply [Ring K] (idx : Fin m → Fin n) (resBar : Vec n K) (w : Vec m K) (i : Fin m) : vjpSurf idx resBar w i = w i - resBar (idx i) :=
  foldl_update_in _ (List.nodup_finRange m) (fun i : Fin m => i) (fun _ _ e => e) (fun w i => w i - resBar (idx i)) (fun v w k e => by rw [e]) w i (List.mem_finRange i)

theorem jvpSurf_apply [CommRing K] (idx : Fin m → Fin n) (hinj : Function.Injective idx) (d : Vec m K) (acc : Vec n K) (j : Fin n) :
    jvpSurf idx d acc j = acc j - ∑ i, if idx i = j then d i else 0 := by
  by_cases h : ∃ i, idx i = j
  · obtain ⟨i, rfl⟩ := h
    have : jvpSurf idx d acc (idx i) = acc (idx i) - d i :=
      foldl_update_in _ (List.nodup_finRange m) idx hinj (fun r i => r (idx i) - d i) (fun v w k e => by rw [e]) acc i (List.mem_finRange i)
    rw [this, Finset.sum_eq_single i]
    · simp
    · intro k _ hk; rw [if_neg (fun e => hk (hinj e))]
    · simp
  · have h' : ∀ i, idx i ≠ j := fun i e => h ⟨i, e⟩
    have : jvpSurf idx d acc j = acc j := foldl_update_notin _ idx (fun r i => r (idx i) - d i) acc j (fun k _ => h' k)
    rw [this, Finset.sum_eq_zero]
    · simp
    · intro i _; rw [if_neg (h' i)]

/-- The C++ forward and reverse products are adjoint. -/
theorem C45_surface_products_adjoint [CommRing K] (idx : Fin m → Fin n) (hinj : Function.Injective idx) (d : Vec m K) (bar : Vec n K) :
    bar ⬝ᵥ jvpSurf idx d 0 = vjpSurf idx bar 0 ⬝ᵥ d := by
  unfold dotProduct
  simp only [jvpSurf_apply idx hinj, vjpSurf_apply, Pi.zero_apply, zero_sub, mul_neg, neg_mul, Finset.sum_neg_distrib, neg_inj]
  simp only [Finset.mul_sum, mul_ite, mul_zero]
  rw [Finset.sum_comm]
  refine Finset.sum_congr rfl fun i _ => ?_
  rw [Finset.sum_ite_eq]
  simp

/-! ## C46: the Python component -/

/-- `<d_residuals, fwd(d_in)> = <rev(d_residuals), d_in>`, on buffers of the right lengths, for the Python component. -/
def PythonAdjoint (idx : List ℕ) (n : ℕ) : Prop :=
  ∀ (dIn dRes : List ℚ), dIn.length = idx.length → dRes.length = n →
    ∃ f r, pyFwd idx dIn (dRes.map fun _ => 0) = some f ∧ pyRev idx dRes (dIn.map fun _ => 0) = some r ∧
      (List.zipWith (· * ·) dRes f).sum = (List.zipWith (· * ·) r dIn).sum

/-- C46 is false: with surface dof 2 of a 3-dof volume the reverse mode accesses memory outside the input buffer. -/
theorem C46_false_out_of_bounds : pyRev (K := ℚ) [2] [1, 1, 1] [0] = none ∧ ¬ PythonAdjoint [2] 3 := by
  refine ⟨by decide +kernel, fun h => ?_⟩
  obtain ⟨f, r, -, hr, -⟩ := h [1] [1, 1, 1] rfl rfl
  have : pyRev (K := ℚ) [2] [1, 1, 1] [0] = none := by decide +kernel
  simp only [List.map_cons, List.map_nil] at hr
  rw [this] at hr
  cases hr

/-- In general: the reverse mode leaves the buffer whenever some surface index is not smaller than the number of surface dofs. -/
theorem C46_false_general [Ring K] (idx : List ℕ) (dRes dIn : List K) (hlen : dIn.length = idx.length) (j : ℕ) (hj : j ∈ idx) (hbig : idx.length ≤ j) :
    pyRev idx dRes dIn = none := by
  have key : ∀ (is : List ℕ) (i : ℕ) (a : List K), (∃ q ∈ is, a.length ≤ q) → jvpRaw is i dRes a = none := by
    intro is
    induction is with
    | nil => intro i a h; obtain ⟨q, hq, -⟩ := h; simp at hq
    | cons p is ih =>
      rintro i a ⟨q, hq, hb⟩
      rw [jvpRaw]
      cases hd : dRes[i]? with
      | none => rfl
      | some w =>
        cases ha : a[p]? with
        | none => rfl
        | some v =>
          simp only
          apply ih
          rcases List.mem_cons.1 hq with rfl | hq
          · rw [List.getElem?_eq_none hb] at ha; cases ha
          · exact ⟨q, hq, by simpa using hb⟩
  exact key idx 0 dIn ⟨j, hj, by omega⟩

/-- Even when every access stays inside, the values are wrong: surface indices `[1, 0]` of a 2-dof volume, where the reverse mode would be right only for a
symmetric map. -/
theorem C46_false_values : ¬ PythonAdjoint [1, 2, 0] 3 := by
  intro h
  obtain ⟨f, r, hf, hr, he⟩ := h [1, 0, 0] [0, 1, 0] rfl rfl
  have e1 : pyFwd (K := ℚ) [1, 2, 0] [1, 0, 0] [0, 0, 0] = some [0, -1, 0] := by decide +kernel
  have e2 : pyRev (K := ℚ) [1, 2, 0] [0, 1, 0] [0, 0, 0] = some [0, 0, -1] := by decide +kernel
  simp only [List.map_cons, List.map_nil] at hf hr
  rw [e1] at hf
  rw [e2] at hr
  cases hf
  cases hr
  exact absurd he (by decide +kernel)

end Verif.Warper
