import Verif.Inputs

/-!
# Inputs: property theorems (C24, C25)
-/

namespace Verif.Inputs

variable {K : Type}

/-- Contents of a pointer/size pair. -/
def contents (h : Heap K) (p n : ℕ) : Option (List K) :=
  match h p with
  | some l => if n ≤ l.length then some (l.take n) else none
  | none => if n = 0 then some [] else none

private theorem contents_of {h : Heap K} {p n : ℕ} {l : List K} (hl : h p = some l) (hn : n ≤ l.length) :
    contents h p n = some (l.take n) := by
  simp [contents, hl, hn]

/-- A client writing through either of two pointers, in any order. -/
def writes (h : Heap K) (p q : ℕ) (ws : List (Bool × ℕ × K)) : Heap K :=
  ws.foldl (fun h w => wr h (if w.1 then p else q) w.2.1 w.2.2) h

/-! ### C24 -/

/-- **C24** Scalars: an absent key leaves the destination unchanged or, if an error was requested, throws; a key
holding a vector throws; a key holding a number delivers that number. -/
theorem C24_value (inputs : Inputs K) (key : String) (value : K) (err : Bool) :
    (inputs key = none → setValueFromInputs inputs key value err =
      if err then .misoException else .ok value) ∧
    (∀ x, inputs key = some (.val x) → setValueFromInputs inputs key value err = .ok x) ∧
    (∀ v, inputs key = some (.vec v) → setValueFromInputs inputs key value err = .badVariant) := by
  refine ⟨?_, ?_, ?_⟩
  · intro h; simp [setValueFromInputs, h]
  · intro x h; simp [setValueFromInputs, h, setValueFromInput]
  · intro v h; simp [setValueFromInputs, h, setValueFromInput]

/-- **C24** Vectors: an absent key changes neither memory nor the destination or, if requested, throws; a key
holding a number throws; a key holding a vector whose memory is valid, and is not memory the
destination itself owns, never fails and leaves the destination with exactly the supplied size and
entries, deep copy or not. -/
theorem C24_vector (h : Heap K) (inputs : Inputs K) (key : String) (v : Vec) (deep err : Bool)
    (fresh : ℕ) (junk : ℕ → List K) :
    (inputs key = none → setVectorFromInputs h inputs key v deep err fresh junk =
      if err then .misoException else .ok (h, v)) ∧
    (∀ x, inputs key = some (.val x) →
      setVectorFromInputs h inputs key v deep err fresh junk = .badVariant) ∧
    (∀ tmp l, inputs key = some (.vec tmp) → h tmp.data = some l → tmp.size ≤ l.length →
      (v.owns = true → v.data ≠ tmp.data) → h fresh = none → (∀ n, (junk n).length = n) →
      (∃ lv, h v.data = some lv ∧ v.size ≤ v.cap ∧ v.cap ≤ lv.length) →
      ∃ h' v', setVectorFromInputs h inputs key v deep err fresh junk = .ok (h', v') ∧
        v'.size = tmp.size ∧ contents h' v'.data v'.size = contents h tmp.data tmp.size) := by
  refine ⟨?_, ?_, ?_⟩
  · intro hk; simp [setVectorFromInputs, hk]
  · intro x hk; simp [setVectorFromInputs, hk, setVectorFromInput]
  · rintro ⟨td, ts⟩ l hk hl hlen hown hfresh hjunk ⟨lv, hlv, hs, hcap⟩
    simp only at hl hlen hown
    have htf : td ≠ fresh := by rintro rfl; rw [hfresh] at hl; cases hl
    cases deep with
    | false =>
      refine ⟨_, _, by simp [setVectorFromInputs, hk, setVectorFromInput]; rfl, rfl, ?_⟩
      have hsrc : freeOwned h v td = some l := by
        unfold freeOwned
        split_ifs with ho
        · simp [Ne.symm (hown ho), hl]
        · exact hl
      rw [contents_of hsrc hlen, contents_of hl hlen]
    | true =>
      simp only [setVectorFromInputs, hk, setVectorFromInput, if_true, setSize]
      by_cases h1 : ts = v.size
      · subst h1
        simp only [if_true, copyFrom, hlv, hl]
        rw [if_pos ⟨by omega, hlen⟩]
        refine ⟨_, _, rfl, rfl, ?_⟩
        rw [contents_of hl hlen, contents_of (if_pos rfl) (by simp; omega)]
        simp [hlen]
      · by_cases h2 : ts ≤ v.cap
        · simp only [if_neg h1, if_pos h2, copyFrom, hlv, hl]
          rw [if_pos ⟨by omega, hlen⟩]
          refine ⟨_, _, rfl, rfl, ?_⟩
          rw [contents_of hl hlen, contents_of (if_pos rfl) (by simp; omega)]
          simp [hlen]
        · have hsrc : freeOwned h v td = some l := by
            unfold freeOwned
            split_ifs with ho
            · simp [Ne.symm (hown ho), hl]
            · exact hl
          simp only [if_neg h1, if_neg h2, copyFrom, if_true, if_neg htf, hsrc]
          rw [if_pos ⟨by rw [hjunk ts]; exact Nat.le_refl _, hlen⟩]
          refine ⟨_, _, rfl, rfl, ?_⟩
          rw [contents_of hl hlen, contents_of (if_pos rfl) (by simp; omega)]
          simp [hlen]

/-! ### C25 -/

/-- **C25** Without deep copy the destination aliases the caller's memory: after any sequence of writes
through either handle, both read the same everywhere, and a write through the destination is
visible to the caller. -/
theorem C25_shallow_aliases (h : Heap K) (tmp : InputVector) (v : Vec) (fresh : ℕ)
    (junk : ℕ → List K) :
    ∃ h' v', setVectorFromInput h (.vec tmp) v false fresh junk = .ok (h', v') ∧ v'.size = tmp.size ∧
      (∀ ws i, rd (writes h' v'.data tmp.data ws) v'.data i = rd (writes h' v'.data tmp.data ws) tmp.data i) ∧
      (∀ l i x, h' tmp.data = some l → i < l.length → rd (wr h' v'.data i x) tmp.data i = some x) := by
  refine ⟨_, _, rfl, rfl, fun _ _ => rfl, ?_⟩
  intro l i x hl hi
  simp only [rd, wr, if_true] at hl ⊢
  rw [hl]
  simp [hi]

/-- **C25** Without deep copy the caller keeps ownership: whatever the destination is set from next (shallow or deep, any
size, wherever new memory comes from), the caller's block is not freed. -/
theorem C25_shallow_never_frees (h : Heap K) (tmp tmp2 : InputVector) (v : Vec) (deep2 : Bool)
    (fresh fresh2 : ℕ) (junk : ℕ → List K) (h' : Heap K) (v' : Vec)
    (h1 : setVectorFromInput h (.vec tmp) v false fresh junk = .ok (h', v'))
    (hvalid : h' tmp.data ≠ none) (h'' : Heap K) (v'' : Vec)
    (h2 : setVectorFromInput h' (.vec tmp2) v' deep2 fresh2 junk = .ok (h'', v'')) :
    h'' tmp.data ≠ none := by
  simp only [setVectorFromInput, Bool.false_eq_true, if_false, newDataAndSize, Out.ok.injEq,
    Prod.mk.injEq] at h1
  obtain ⟨-, rfl⟩ := h1
  have hfree : freeOwned h' ⟨tmp.data, tmp.size, tmp.size, false⟩ = h' := by simp [freeOwned]
  simp only [setVectorFromInput] at h2
  cases deep2 with
  | false =>
    simp only [Bool.false_eq_true, if_false, newDataAndSize, hfree, Out.ok.injEq, Prod.mk.injEq] at h2
    rw [← h2.1]; exact hvalid
  | true =>
    simp only [if_true] at h2
    have hs : (setSize h' ⟨tmp.data, tmp.size, tmp.size, false⟩ tmp2.size fresh2 junk).1 tmp.data ≠ none := by
      unfold setSize
      split_ifs
      · exact hvalid
      · exact hvalid
      · simp only [hfree]
        split_ifs
        · simp
        · exact hvalid
    generalize setSize h' ⟨tmp.data, tmp.size, tmp.size, false⟩ tmp2.size fresh2 junk = q at h2 hs
    obtain ⟨h3, v3⟩ := q
    simp only [copyFrom] at h2 hs
    split at h2
    · rename_i h4 heq
      cases h2
      split at heq
      · split_ifs at heq
        cases heq
        simp only
        split_ifs
        · simp
        · exact hs
      · split_ifs at heq
        cases heq; exact hs
    all_goals cases h2

/-- The client's handle to the source and the destination refer to different memory. -/
def Disjoint (v : Vec) (tmp : InputVector) : Prop := v.data ≠ tmp.data

/-- **C25** With deep copy into a vector that was not already an alias of the source, the two are independent: any
writes through one leave the other's contents as they were right after the copy, and memory the destination had to
acquire belongs to it. -/
theorem C25_deep_independent (h : Heap K) (tmp : InputVector) (v : Vec) (fresh : ℕ)
    (junk : ℕ → List K) (hdis : Disjoint v tmp) (hfresh : h fresh = none) (hsrc : h tmp.data ≠ none)
    (h' : Heap K) (v' : Vec)
    (hr : setVectorFromInput h (.vec tmp) v true fresh junk = .ok (h', v')) :
    v'.data ≠ tmp.data ∧ (v'.owns = true ∨ v'.data = v.data) ∧
    (∀ ws : List (ℕ × K), ∀ i, rd (ws.foldl (fun h w => wr h v'.data w.1 w.2) h') tmp.data i
      = rd h tmp.data i) ∧
    (∀ ws : List (ℕ × K), ∀ i, rd (ws.foldl (fun h w => wr h tmp.data w.1 w.2) h') v'.data i
      = rd h' v'.data i) := by
  have frame : ∀ (p q : ℕ), p ≠ q → ∀ (ws : List (ℕ × K)) (h : Heap K),
      (ws.foldl (fun h w => wr h p w.1 w.2) h) q = h q := by
    intro p q hpq ws
    induction ws with
    | nil => intro h; rfl
    | cons w ws ih => intro h; rw [List.foldl_cons, ih]; simp [wr, Ne.symm hpq]
  have hft : fresh ≠ tmp.data := by rintro rfl; exact hsrc hfresh
  have key : v'.data ≠ tmp.data ∧ h' tmp.data = h tmp.data ∧ (v'.owns = true ∨ v'.data = v.data) := by
    simp only [setVectorFromInput, if_true] at hr
    have hs : (setSize h v tmp.size fresh junk).2.data ≠ tmp.data ∧
        ((setSize h v tmp.size fresh junk).1 tmp.data = h tmp.data) ∧
        ((setSize h v tmp.size fresh junk).2.owns = true ∨ (setSize h v tmp.size fresh junk).2.data = v.data) := by
      unfold setSize
      split_ifs with h1 h2
      · exact ⟨hdis, rfl, Or.inr rfl⟩
      · exact ⟨hdis, rfl, Or.inr rfl⟩
      · refine ⟨hft, ?_, Or.inl rfl⟩
        simp only [Ne.symm hft, if_false]
        unfold freeOwned
        split_ifs
        · simp [Ne.symm hdis]
        · rfl
    generalize setSize h v tmp.size fresh junk = q at hr hs
    obtain ⟨h1, v1⟩ := q
    simp only [copyFrom] at hr hs
    split at hr
    · rename_i h2 heq
      cases hr
      refine ⟨hs.1, ?_, hs.2.2⟩
      rw [← hs.2.1]
      split at heq
      · split_ifs at heq
        cases heq
        simp [Ne.symm hs.1]
      · split_ifs at heq
        cases heq; rfl
    all_goals cases hr
  refine ⟨key.1, key.2.2, ?_, ?_⟩
  · intro ws i; simp only [rd]; rw [frame _ _ key.1, key.2.1]
  · intro ws i; simp only [rd]; rw [frame _ _ (Ne.symm key.1)]

/-- **C25 (violated)** "Deep copy gives an independent vector" fails when the destination was filled before without
deep copy: the copy is written into the first caller's memory.  Concretely a vector that was set (shallow) from
input `a` and is then set (deep) from input `b` of the same size destroys `a`'s data. -/
theorem C25_false_deep_copy_into_alias :
    ∃ (h : Heap ℕ) (a b : InputVector) (v0 : Vec) (h1 h2 : Heap ℕ) (v1 v2 : Vec) (junk : ℕ → List ℕ),
      a.data ≠ b.data ∧ h v0.data = none ∧ v0.size = 0 ∧ h 9 = none ∧
      setVectorFromInput h (.vec a) v0 false 9 junk = .ok (h1, v1) ∧
      setVectorFromInput h1 (.vec b) v1 true 9 junk = .ok (h2, v2) ∧
      contents h a.data a.size = some [1, 2] ∧ contents h b.data b.size = some [3, 4] ∧
      contents h2 a.data a.size = some [3, 4] := by
  refine ⟨fun b => if b = 1 then some [1, 2] else if b = 2 then some [3, 4] else none,
    ⟨1, 2⟩, ⟨2, 2⟩, ⟨0, 0, 0, false⟩, _, _, _, _, fun n => List.replicate n 0,
    by decide, rfl, rfl, rfl, rfl, rfl, rfl, rfl, rfl⟩

/-- **C25 (hazard)** Passing a vector that owns its data as an input to itself without deep copy frees the memory the
input refers to: any later access is to freed memory. -/
theorem C25_false_self_input_dangles (h : Heap K) (v : Vec) (hown : v.owns = true) (fresh : ℕ)
    (junk : ℕ → List K) :
    ∃ h' v', setVectorFromInput h (.vec ⟨v.data, v.size⟩) v false fresh junk = .ok (h', v') ∧
      v'.data = v.data ∧ h' v'.data = none := by
  refine ⟨_, _, rfl, rfl, ?_⟩
  simp [freeOwned, hown]

/-- Non-vacuity of the deep-copy theorem: a vector of size 1 grows to size 2. -/
example :
    let h : Heap ℕ := fun b => if b = 1 then some [5] else if b = 2 then some [3, 4] else none
    ∃ h' v', Disjoint ⟨1, 1, 1, true⟩ ⟨2, 2⟩ ∧ h 9 = none ∧ h 2 ≠ none ∧
      setVectorFromInput h (.vec ⟨2, 2⟩) ⟨1, 1, 1, true⟩ true 9 (fun n => List.replicate n 0) = .ok (h', v') ∧
      contents h' v'.data v'.size = some [3, 4] ∧ h' 1 = none :=
  ⟨_, _, by unfold Disjoint; decide, rfl, by simp, rfl, rfl, rfl⟩

end Verif.Inputs
