import Verif.Thermal
import Mathlib.Data.Rat.Defs
import Mathlib.Algebra.Field.Rat
import Mathlib.Tactic.Ring
import Mathlib.Tactic.NormNum

/-!
# Thermal residual: property theorems (C44)

Specification: `zeroAt ess l` is the list `l` with the entries at positions `ess` replaced by zero; `dot` the inner product.
-/

namespace Verif.Thermal

open Verif.Inputs

variable {K : Type}

def zeroAt [Zero K] (ess : List ℕ) (l : List K) : List K := l.mapIdx fun i x => if i ∈ ess then 0 else x

def dot [Ring K] (a b : List K) : K := (List.zipWith (· * ·) a b).sum

theorem zeroAt_cons [Zero K] (i : ℕ) (is : List ℕ) (l : List K) : zeroAt is (l.set i 0) = zeroAt (i :: is) l := by
  apply List.ext_getElem
  · simp [zeroAt]
  · intro j h1 h2
    simp only [zeroAt, List.getElem_mapIdx, List.getElem_set, List.mem_cons]
    by_cases hj : i = j
    · subst hj; simp
    · simp [hj, Ne.symm hj]

theorem zeroAt_nil [Zero K] (l : List K) : zeroAt [] l = l := by
  apply List.ext_getElem
  · simp [zeroAt]
  · intro j h1 h2; simp [zeroAt]

theorem setSub_spec [Zero K] (ess : List ℕ) (h : Heap K) (v : Vec) (l : List K) (hl : h v.data = some l) (hs : v.size ≤ l.length) (he : ∀ i ∈ ess, i < v.size) :
    setSub h v ess = .ok fun b => if b = v.data then some (zeroAt ess l) else h b := by
  induction ess generalizing h l with
  | nil =>
    rw [setSub, zeroAt_nil]
    congr 1
    funext b
    split
    · next e => rw [e, hl]
    · rfl
  | cons i is ih =>
    have hi := he i (by simp)
    rw [setSub]
    simp only [hl]
    rw [if_pos ⟨hi, by omega⟩, ih (wr h v.data i 0) (l.set i 0) (by simp [wr, hl]) (by simpa using hs) (fun j hj => he j (List.mem_cons_of_mem _ hj)), zeroAt_cons]
    congr 1
    funext b
    by_cases hb : b = v.data
    · simp [hb]
    · simp [hb, wr]

/-- The load a client passes: pointer `p`, contents `l`. -/
def loadInput (p n : ℕ) : Inputs K := fun k => if k = "thermal_load" then some (.vec ⟨p, n⟩) else none

/-- C44 (what holds): passing a load of the residual's size and evaluating subtracts that load, with the essential entries dropped. -/
theorem C44_load_subtracted_partial [Ring K] (h : Heap K) (r : Res) (p : ℕ) (l nl : List K) (hl : h p = some l) (hn : l.length = nl.length) (h0 : nl ≠ [])
    (hown : r.load.owns = true → r.load.data ≠ p) (he : ∀ i ∈ r.ess, i < nl.length) (fresh : ℕ) (junk : ℕ → List K) :
    ∃ h' r', r.setInputs h (loadInput p l.length) fresh junk = .ok (h', r') ∧ r'.evaluate h' nl = .ok (List.zipWith (· - ·) nl (zeroAt r.ess l)) := by
  have hsize : l.length ≠ 0 := by rw [hn]; exact fun e => h0 (List.length_eq_zero_iff.1 e)
  have hsrc : freeOwned h r.load p = some l := by
    unfold freeOwned
    split_ifs with ho
    · simp [Ne.symm (hown ho), hl]
    · exact hl
  have hs := setSub_spec r.ess (freeOwned h r.load) ⟨p, l.length, l.length, false⟩ l hsrc (le_refl _) (by simpa [hn] using he)
  refine ⟨fun b => if b = p then some (zeroAt r.ess l) else freeOwned h r.load b, { r with load := ⟨p, l.length, l.length, false⟩ }, ?_, ?_⟩
  · unfold Res.setInputs setVectorFromInputs loadInput setVectorFromInput newDataAndSize
    simp only [if_true, Bool.false_eq_true, if_false, ne_eq, hsize, not_false_eq_true]
    rw [hs]
  · unfold Res.evaluate
    simp only [hn, if_true]
    have : (zeroAt r.ess l).length = l.length := by simp [zeroAt]
    rw [if_pos (by omega), List.take_of_length_le (by omega)]

example : ∃ h' r', Res.setInputs (K := ℚ) (fun b => if b = 7 then some [1, 2, 3] else none) ⟨[0, 2], ⟨0, 0, 0, false⟩⟩ (loadInput 7 3) 9 (fun _ => []) = .ok (h', r') ∧
    r'.evaluate h' [10, 20, 30] = .ok [10, 18, 30] := by
  obtain ⟨h', r', h1, h2⟩ := C44_load_subtracted_partial (K := ℚ) (fun b => if b = 7 then some [1, 2, 3] else none) ⟨[0, 2], ⟨0, 0, 0, false⟩⟩ 7 [1, 2, 3] [10, 20, 30] rfl rfl
    (by simp) (by simp) (by simp) 9 (fun _ => [])
  refine ⟨h', r', h1, ?_⟩
  rw [h2]
  congr 1
  decide +kernel

/-- C44 fails: setting inputs writes into the caller's load vector — it is left with its essential entries zeroed — for every load and every essential list. -/
theorem C44_false_caller_vector_modified [Ring K] (h : Heap K) (r : Res) (p : ℕ) (l : List K) (hl : h p = some l) (h0 : l ≠ [])
    (hown : r.load.owns = true → r.load.data ≠ p) (he : ∀ i ∈ r.ess, i < l.length) (fresh : ℕ) (junk : ℕ → List K) :
    ∃ h' r', r.setInputs h (loadInput p l.length) fresh junk = .ok (h', r') ∧ h' p = some (zeroAt r.ess l) ∧
      (h' p = h p ↔ ∀ i ∈ r.ess, l[i]? = some 0) := by
  have hsize : l.length ≠ 0 := fun e => h0 (List.length_eq_zero_iff.1 e)
  have hsrc : freeOwned h r.load p = some l := by
    unfold freeOwned
    split_ifs with ho
    · simp [Ne.symm (hown ho), hl]
    · exact hl
  have hs := setSub_spec r.ess (freeOwned h r.load) ⟨p, l.length, l.length, false⟩ l hsrc (le_refl _) (by simpa using he)
  refine ⟨fun b => if b = p then some (zeroAt r.ess l) else freeOwned h r.load b, { r with load := ⟨p, l.length, l.length, false⟩ }, ?_, ?_, ?_⟩
  · unfold Res.setInputs setVectorFromInputs loadInput setVectorFromInput newDataAndSize
    simp only [if_true, Bool.false_eq_true, if_false, ne_eq, hsize, not_false_eq_true]
    rw [hs]
  · simp
  · simp only [if_true, hl, Option.some.injEq]
    constructor
    · intro e i hi
      have hil := he i hi
      have := congrArg (fun q : List K => q[i]?) e
      simp only [zeroAt, List.getElem?_mapIdx, List.getElem?_eq_getElem hil, Option.map_some, hi, if_true] at this
      rw [List.getElem?_eq_getElem hil, ← this]
    · intro hz
      apply List.ext_getElem
      · simp [zeroAt]
      · intro j h1 h2
        simp only [zeroAt, List.getElem_mapIdx]
        split
        · next hj =>
          have := hz j hj
          rw [List.getElem?_eq_getElem h2] at this
          exact (Option.some.inj this).symm
        · rfl

/-- C44 fails: the residual keeps pointing at the caller's vector; if the caller has released it, the next input update that does not mention the load is
undefined behaviour. -/
theorem C44_false_dangling [Ring K] (h : Heap K) (r : Res) (hl : h r.load.data = none) (hs : r.load.size ≠ 0) (he : r.ess ≠ []) (fresh : ℕ) (junk : ℕ → List K) :
    r.setInputs h (fun _ => none) fresh junk = .ub := by
  obtain ⟨i, is, hi⟩ := List.exists_cons_of_ne_nil he
  unfold Res.setInputs setVectorFromInputs
  simp [hs, hi, setSub, hl]

/-- The two load products are adjoint to each other, whatever the result vectors held before. -/
theorem C44_products_adjoint [CommRing K] (r : Res) (wrtDot resBar resDot wrtBar : List K) (h1 : resDot.length = wrtDot.length) (h2 : wrtBar.length = resBar.length)
    (h3 : wrtDot.length = resBar.length) : dot resBar (r.jvpLoad wrtDot resDot) = dot (r.vjpLoad resBar wrtBar) wrtDot := by
  have e1 : ∀ (a b : List K), a.length = b.length → List.zipWith (fun r w => r + (-1) * w) (a.map fun _ => (0 : K)) b = b.map fun x => -x := by
    intro a
    induction a with
    | nil => intro b hb; cases b <;> simp_all
    | cons x a ih =>
      intro b hb
      cases b with
      | nil => simp at hb
      | cons y b =>
        simp only [List.map_cons, List.zipWith_cons_cons]
        rw [ih b (by simpa using hb)]
        simp
  unfold Res.jvpLoad Res.vjpLoad dot
  rw [e1 _ _ h1, e1 _ _ h2]
  clear h1 h2 e1
  congr 1
  induction wrtDot generalizing resBar with
  | nil => cases resBar <;> simp_all
  | cons x a ih =>
    cases resBar with
    | nil => simp at h3
    | cons y b =>
      simp only [List.map_cons, List.zipWith_cons_cons]
      rw [ih b (by simpa using h3)]
      simp

/-- On dofs that are not essential the forward product, started from zero, is the exact change of the residual under a change of the load. -/
theorem C44_free_dofs_partial [CommRing K] (r : Res) (nl l d : List K) (hn : l.length = nl.length) (hd : d.length = nl.length) (i : ℕ) (hi : i < nl.length) (hf : i ∉ r.ess) :
    (List.zipWith (· - ·) nl (zeroAt r.ess (List.zipWith (· + ·) l d)))[i]? =
      ((List.zipWith (· - ·) nl (zeroAt r.ess l))[i]?).bind fun a => ((r.jvpLoad d (nl.map fun _ => 0))[i]?).map fun b => a + b := by
  have h1 : i < l.length := by omega
  have h2 : i < d.length := by omega
  simp only [Res.jvpLoad, zeroAt, List.getElem?_zipWith, List.getElem?_mapIdx, List.getElem?_map, List.getElem?_eq_getElem h1, List.getElem?_eq_getElem h2,
    List.getElem?_eq_getElem hi, Option.map_some, hf, if_false, Option.bind_some]
  congr 1
  ring

/-- C44 fails: on an essential dof the residual does not depend on the load at all, but the product reports `-wrt_dot`; and the old content of the result is
lost instead of being accumulated into. -/
theorem C44_false_products : (∃ (r : Res) (nl l d : List ℚ), List.zipWith (· - ·) nl (zeroAt r.ess (List.zipWith (· + ·) l d)) = List.zipWith (· - ·) nl (zeroAt r.ess l) ∧
      r.jvpLoad d (nl.map fun _ => 0) = [-1]) ∧
    (∃ (r : Res) (d acc : List ℚ), r.jvpLoad d acc = [-1] ∧ r.vjpLoad d acc = [-1] ∧ acc = [5] ∧ d = [1]) := by
  refine ⟨⟨⟨[0], ⟨0, 0, 0, false⟩⟩, [3], [2], [1], ?_, ?_⟩, ⟨⟨[], ⟨0, 0, 0, false⟩⟩, [1], [5], ?_, ?_, rfl, rfl⟩⟩ <;> decide +kernel

end Verif.Thermal
