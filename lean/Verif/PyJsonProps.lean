import Verif.PyJson
import Mathlib.Tactic.NormNum

/-!
# Options from Python: property theorems (C223, C224)

Specification: a place in an option tree is a path of keys and list positions; `Py.at` and `Json.at` say what is seen there: nothing, or a
`Leaf` (for a dictionary only that there is one, for a list its length: their contents are at longer paths).
-/

namespace Verif.PyJson

/-! ### Specification -/

/-- One step into an option tree. -/
inductive Step
  | key (s : String)
  | idx (n : ℕ)

/-- What is seen at one place. -/
inductive Leaf
  | null
  | bool (b : Bool)
  | int (z : ℤ)
  | float (f : Flt)
  | str (s : String)
  | list (length : ℕ)
  | dict

def PyL.nth : PyL → ℕ → Option Py
  | .nil, _ => none
  | .cons v _, 0 => some v
  | .cons _ r, n + 1 => r.nth n

def PyL.length : PyL → ℕ
  | .nil => 0
  | .cons _ r => r.length + 1

/-- The first entry whose key has that text. -/
def PyD.get : PyD → String → Option Py
  | .nil, _ => none
  | .cons k v r, s => if k = s then some v else r.get s

def PyD.keys : PyD → List String
  | .nil => []
  | .cons k _ r => k :: r.keys

def JL.nth : JL → ℕ → Option Json
  | .nil, _ => none
  | .cons v _, 0 => some v
  | .cons _ r, n + 1 => r.nth n

def JL.length : JL → ℕ
  | .nil => 0
  | .cons _ r => r.length + 1

def JO.keys : JO → List String
  | .nil => []
  | .cons k _ r => k :: r.keys

/-- What a Python object shows at its root (tuples and lists are not told apart). -/
def Py.leaf : Py → Leaf
  | .pyNone => .null
  | .bool b => .bool b
  | .int z => .int z
  | .float f => .float f
  | .str s => .str s
  | .seq _ l => .list l.length
  | .dict _ => .dict
  | .other => .null

def Json.leaf : Json → Leaf
  | .null => .null
  | .bool b => .bool b
  | .int z => .int z
  | .float f => .float f
  | .str s => .str s
  | .arr l => .list l.length
  | .obj _ => .dict

/-- What Python sees at a path. -/
def Py.at : List Step → Py → Option Leaf
  | [], v => some v.leaf
  | .key s :: p, .dict d => (d.get s).bind (Py.at p)
  | .idx n :: p, .seq _ l => (l.nth n).bind (Py.at p)
  | _ :: _, _ => none

/-- What C++ sees at a path. -/
def Json.at : List Step → Json → Option Leaf
  | [], j => some j.leaf
  | .key s :: p, .obj o => (o.find s).bind (Json.at p)
  | .idx n :: p, .arr l => (l.nth n).bind (Json.at p)
  | _ :: _, _ => none

mutual
/-- In every dictionary inside, different keys have different texts. -/
def Distinct : Py → Prop
  | .seq _ l => DistinctL l
  | .dict d => d.keys.Nodup ∧ DistinctD d
  | _ => True
def DistinctL : PyL → Prop
  | .nil => True
  | .cons v r => Distinct v ∧ DistinctL r
def DistinctD : PyD → Prop
  | .nil => True
  | .cons _ v r => Distinct v ∧ DistinctD r
end

mutual
/-- `w` is the object itself or occurs inside it. -/
inductive Contains (w : Py) : Py → Prop
  | here : Contains w w
  | seq (t : Bool) (l : PyL) : ContainsL w l → Contains w (.seq t l)
  | dict (d : PyD) : ContainsD w d → Contains w (.dict d)
inductive ContainsL (w : Py) : PyL → Prop
  | head (v : Py) (r : PyL) : Contains w v → ContainsL w (.cons v r)
  | tail (v : Py) (r : PyL) : ContainsL w r → ContainsL w (.cons v r)
inductive ContainsD (w : Py) : PyD → Prop
  | head (k : String) (v : Py) (r : PyD) : Contains w v → ContainsD w (.cons k v r)
  | tail (k : String) (v : Py) (r : PyD) : ContainsD w r → ContainsD w (.cons k v r)
end

/-- A float that can be read back: finite or NaN, and if it is a whole number, one that fits a `long`. -/
def FltOk : Flt → Prop
  | .fin q => ∀ z : ℤ, q = z → InLong z
  | .inf => False
  | .ninf => False
  | .nan => True

/-- The same value, a whole float being the same as the integer. -/
def SameValue : Leaf → Leaf → Prop
  | .int z, .int z' => z = z'
  | .float (.fin q), .int z => q = z
  | .int z, .float (.fin q) => q = z
  | a, b => a = b

/-- Nothing at both places, or the same value at both. -/
def SameAt : Option Leaf → Option Leaf → Prop
  | some a, some b => SameValue a b
  | none, none => True
  | _, _ => False

/-! ### Lemmas: to JSON -/

theorem find_set (o : JO) (k s : String) (v : Json) : (o.set k v).find s = if k = s then some v else o.find s := by
  match o with
  | .nil => simp [JO.set, JO.find]
  | .cons k' v' r =>
    have ih := find_set r k s v
    by_cases h : k' = k
    · subst h; by_cases h2 : k' = s <;> simp [JO.set, JO.find, h2]
    · simp only [JO.set, if_neg h, JO.find]
      by_cases h2 : k' = s
      · subst h2; simp [Ne.symm h]
      · simp [h2, ih]

theorem get_set (o : PyD) (k s : String) (v : Py) : (o.set k v).get s = if k = s then some v else o.get s := by
  match o with
  | .nil => simp [PyD.set, PyD.get]
  | .cons k' v' r =>
    have ih := get_set r k s v
    by_cases h : k' = k
    · subst h; by_cases h2 : k' = s <;> simp [PyD.set, PyD.get, h2]
    · simp only [PyD.set, if_neg h, PyD.get]
      by_cases h2 : k' = s
      · subst h2; simp [Ne.symm h]
      · simp [h2, ih]

theorem keys_set (o : JO) (k : String) (v : Json) : ∀ s, s ∈ (o.set k v).keys ↔ s = k ∨ s ∈ o.keys := by
  match o with
  | .nil => intro s; simp [JO.set, JO.keys]
  | .cons k' v' r =>
    intro s
    have ih := keys_set r k v s
    by_cases h : k' = k
    · subst h; simp [JO.set, JO.keys]
    · simp only [JO.set, if_neg h, JO.keys, List.mem_cons, ih]
      constructor
      · rintro (h | h | h) <;> simp [h]
      · rintro (h | h | h) <;> simp [h]

theorem nodup_set (o : JO) (k : String) (v : Json) (h : o.keys.Nodup) : (o.set k v).keys.Nodup := by
  match o with
  | .nil => simp [JO.set, JO.keys]
  | .cons k' v' r =>
    simp only [JO.keys, List.nodup_cons] at h
    by_cases e : k' = k
    · simp only [JO.set, if_pos e, JO.keys, List.nodup_cons]; exact h
    · simp only [JO.set, if_neg e, JO.keys, List.nodup_cons, keys_set]
      exact ⟨by rintro (h' | h'); exacts [e h', h.1 h'], nodup_set r k v h.2⟩

theorem get_none (d : PyD) (s : String) (h : s ∉ d.keys) : d.get s = none := by
  match d with
  | .nil => rfl
  | .cons k v r =>
    simp only [PyD.keys, List.mem_cons, not_or] at h
    simp only [PyD.get, if_neg (Ne.symm h.1)]
    exact get_none r s h.2

theorem find_none (d : JO) (s : String) (h : s ∉ d.keys) : d.find s = none := by
  match d with
  | .nil => rfl
  | .cons k v r =>
    simp only [JO.keys, List.mem_cons, not_or] at h
    simp only [JO.find, if_neg (Ne.symm h.1)]
    exact find_none r s h.2

theorem toJsonL_nth (l : PyL) : ∀ (jl : JL), toJsonL l = some jl →
    l.length = jl.length ∧ ∀ n, jl.nth n = (l.nth n).bind toJson := by
  match l with
  | .nil => intro jl h; simp only [toJsonL, Option.some.injEq] at h; subst h; exact ⟨rfl, fun n => rfl⟩
  | .cons v r =>
    intro jl h
    simp only [toJsonL] at h
    rcases hv : toJson v with _ | j <;> rw [hv] at h
    · simp at h
    · rcases hr : toJsonL r with _ | jr <;> rw [hr] at h
      · simp at h
      · simp only [Option.map_some, Option.some.injEq] at h
        subst h
        have ih := toJsonL_nth r jr hr
        refine ⟨by simp [PyL.length, JL.length, ih.1], fun n => ?_⟩
        cases n with
        | zero => simp [JL.nth, PyL.nth, hv]
        | succ n => simpa [JL.nth, PyL.nth] using ih.2 n

theorem toJsonD_find (d : PyD) : ∀ (out o : JO), d.keys.Nodup → toJsonD d out = some o →
    ∀ s, o.find s = (match d.get s with | some v => toJson v | none => out.find s) := by
  match d with
  | .nil => intro out o _ h s; simp only [toJsonD, Option.some.injEq] at h; subst h; simp [PyD.get]
  | .cons k v r =>
    intro out o hd h s
    simp only [PyD.keys, List.nodup_cons] at hd
    simp only [toJsonD] at h
    rcases hv : toJson v with _ | j <;> rw [hv] at h
    · simp at h
    · have ih := toJsonD_find r _ o hd.2 h s
      rw [ih]
      by_cases e : k = s
      · subst e; simp [PyD.get, get_none r k hd.1, find_set, hv]
      · simp [PyD.get, e, find_set]

theorem distinctL_nth (l : PyL) (h : DistinctL l) : ∀ n v, l.nth n = some v → Distinct v := by
  match l with
  | .nil => intro n v e; simp [PyL.nth] at e
  | .cons w r =>
    simp only [DistinctL] at h
    intro n v e
    cases n with
    | zero => simp only [PyL.nth, Option.some.injEq] at e; exact e ▸ h.1
    | succ n => exact distinctL_nth r h.2 n v e

theorem distinctD_get (d : PyD) (h : DistinctD d) (s : String) (v : Py) (e : d.get s = some v) : Distinct v := by
  match d with
  | .nil => simp [PyD.get] at e
  | .cons k w r =>
    simp only [DistinctD] at h
    simp only [PyD.get] at e
    split at e
    · simp only [Option.some.injEq] at e; exact e ▸ h.1
    · exact distinctD_get r h.2 s v e

theorem leaf_toJson (v : Py) (j : Json) (h : toJson v = some j) : j.leaf = v.leaf := by
  match v with
  | .pyNone | .bool _ | .float _ | .str _ => simp only [toJson, Option.some.injEq] at h; subst h; rfl
  | .int z =>
    simp only [toJson] at h
    split at h
    · simp only [Option.some.injEq] at h; subst h; rfl
    · simp at h
  | .seq t l =>
    simp only [toJson] at h
    rcases hl : toJsonL l with _ | jl <;> rw [hl] at h
    · simp at h
    · simp only [Option.map_some, Option.some.injEq] at h
      subst h
      simp [Json.leaf, Py.leaf, (toJsonL_nth l jl hl).1]
  | .dict d =>
    simp only [toJson] at h
    rcases hd : toJsonD d .nil with _ | o <;> rw [hd] at h
    · simp at h
    · simp only [Option.map_some, Option.some.injEq] at h
      subst h; rfl
  | .other => simp [toJson] at h

theorem toJsonL_fail (l : PyL) : ∀ (n : ℕ) (jl : JL) (w : Py), toJsonL l = some jl → l.nth n = some w → toJson w = none → False := by
  match l with
  | .nil => intro n jl w _ e; simp [PyL.nth] at e
  | .cons v r =>
    intro n jl w h e hw
    simp only [toJsonL] at h
    cases n with
    | zero => simp only [PyL.nth, Option.some.injEq] at e; subst e; rw [hw] at h; simp at h
    | succ n =>
      rcases hv : toJson v with _ | j <;> rw [hv] at h
      · simp at h
      · rcases hr : toJsonL r with _ | jr <;> rw [hr] at h
        · simp at h
        · exact toJsonL_fail r n jr w hr e hw

theorem toJsonD_fail (d : PyD) : ∀ (out o : JO) (s : String) (w : Py), toJsonD d out = some o → d.get s = some w → toJson w = none →
    False := by
  match d with
  | .nil => intro out o s w _ e; simp [PyD.get] at e
  | .cons k v r =>
    intro out o s w h e hw
    simp only [toJsonD] at h
    rcases hv : toJson v with _ | j <;> rw [hv] at h
    · simp at h
    · simp only [PyD.get] at e
      split at e
      · simp only [Option.some.injEq] at e; subst e; rw [hw] at hv; simp at hv
      · exact toJsonD_fail r _ o s w h e hw

/-! ### C223 -/

/-- **C223** What Python wrote is what C++ reads, at every path (missing stays missing): if no dictionary has two keys with the same text. -/
theorem C223_arrives (p : List Step) : ∀ (v : Py) (j : Json), Distinct v → toJson v = some j → j.at p = v.at p := by
  induction p with
  | nil => intro v j _ h; simp [Json.at, Py.at, leaf_toJson v j h]
  | cons s p ih =>
    intro v j hd h
    match v with
    | .pyNone | .bool _ | .float _ | .str _ => simp only [toJson, Option.some.injEq] at h; subst h; cases s <;> rfl
    | .int z =>
      simp only [toJson] at h
      split at h
      · simp only [Option.some.injEq] at h; subst h; cases s <;> rfl
      · simp at h
    | .seq t l =>
      simp only [toJson] at h
      rcases hl : toJsonL l with _ | jl <;> rw [hl] at h
      · simp at h
      · simp only [Option.map_some, Option.some.injEq] at h
        subst h
        cases s with
        | key s => rfl
        | idx n =>
          have hn := (toJsonL_nth l jl hl).2 n
          simp only [Json.at, Py.at, hn]
          rcases hv : l.nth n with _ | w
          · rfl
          · simp only [Option.bind_some]
            rcases hw : toJson w with _ | jw
            · exfalso
              exact toJsonL_fail l n jl w hl hv hw
            · simp only [Option.bind_some]
              exact ih w jw (distinctL_nth l hd n w hv) hw
    | .dict d =>
      simp only [toJson] at h
      rcases hl : toJsonD d .nil with _ | o <;> rw [hl] at h
      · simp at h
      · simp only [Option.map_some, Option.some.injEq] at h
        subst h
        cases s with
        | idx n => rfl
        | key s =>
          have hn := toJsonD_find d .nil o hd.1 hl s
          simp only [Json.at, Py.at, hn]
          rcases hv : d.get s with _ | w
          · rfl
          · simp only [Option.bind_some]
            rcases hw : toJson w with _ | jw
            · exfalso
              exact toJsonD_fail d .nil o s w hl hv hw
            · simp only [Option.bind_some]
              exact ih w jw (distinctD_get d hd.2 s w hv) hw
    | .other => simp [toJson] at h

/-- An object that has no JSON form: an unsupported class, or an integer that does not fit a `long`. -/
def Unsupported (w : Py) : Prop := w = .other ∨ ∃ z, w = .int z ∧ ¬ InLong z

mutual
theorem rejected_iff : (v : Py) → (toJson v = none ↔ ∃ w, Unsupported w ∧ Contains w v)
  | .pyNone => by
    simp only [toJson, reduceCtorEq, false_iff]
    rintro ⟨w, (rfl | ⟨z, rfl, _⟩), hc⟩ <;> cases hc
  | .bool b => by
    simp only [toJson, reduceCtorEq, false_iff]
    rintro ⟨w, (rfl | ⟨z, rfl, _⟩), hc⟩ <;> cases hc
  | .float f => by
    simp only [toJson, reduceCtorEq, false_iff]
    rintro ⟨w, (rfl | ⟨z, rfl, _⟩), hc⟩ <;> cases hc
  | .str s => by
    simp only [toJson, reduceCtorEq, false_iff]
    rintro ⟨w, (rfl | ⟨z, rfl, _⟩), hc⟩ <;> cases hc
  | .int z => by
    simp only [toJson]
    split
    · rename_i hz
      simp only [reduceCtorEq, false_iff]
      rintro ⟨w, (rfl | ⟨z', rfl, hz'⟩), hc⟩
      · cases hc
      · cases hc; exact hz' hz
    · rename_i hz
      simp only [true_iff]
      exact ⟨.int z, Or.inr ⟨z, rfl, hz⟩, .here⟩
  | .other => by
    simp only [toJson, true_iff]
    exact ⟨.other, Or.inl rfl, .here⟩
  | .seq t l => by
    simp only [toJson, Option.map_eq_none_iff, rejectedL_iff l]
    constructor
    · rintro ⟨w, hu, hc⟩; exact ⟨w, hu, .seq t l hc⟩
    · rintro ⟨w, hu, hc⟩
      cases hc with
      | here => rcases hu with h | ⟨z, h, _⟩ <;> cases h
      | seq _ _ h => exact ⟨w, hu, h⟩
  | .dict d => by
    simp only [toJson, Option.map_eq_none_iff, rejectedD_iff d]
    constructor
    · rintro ⟨w, hu, hc⟩; exact ⟨w, hu, .dict d hc⟩
    · rintro ⟨w, hu, hc⟩
      cases hc with
      | here => rcases hu with h | ⟨z, h, _⟩ <;> cases h
      | dict _ h => exact ⟨w, hu, h⟩
theorem rejectedL_iff : (l : PyL) → (toJsonL l = none ↔ ∃ w, Unsupported w ∧ ContainsL w l)
  | .nil => by
    simp only [toJsonL, reduceCtorEq, false_iff]
    rintro ⟨w, _, hc⟩; cases hc
  | .cons v r => by
    have h1 := rejected_iff v
    have h2 := rejectedL_iff r
    simp only [toJsonL]
    rcases hv : toJson v with _ | j
    · simp only [true_iff]
      obtain ⟨w, hu, hc⟩ := h1.1 hv
      exact ⟨w, hu, .head v r hc⟩
    · simp only [Option.map_eq_none_iff, h2]
      constructor
      · rintro ⟨w, hu, hc⟩; exact ⟨w, hu, .tail v r hc⟩
      · rintro ⟨w, hu, hc⟩
        cases hc with
        | head _ _ h => have := h1.2 ⟨w, hu, h⟩; rw [hv] at this; cases this
        | tail _ _ h => exact ⟨w, hu, h⟩
theorem rejectedD_iff : (d : PyD) → ∀ {out : JO}, (toJsonD d out = none ↔ ∃ w, Unsupported w ∧ ContainsD w d)
  | .nil => by
    simp only [toJsonD, reduceCtorEq, false_iff]
    rintro ⟨w, _, hc⟩; cases hc
  | .cons k v r => by
    have h1 := rejected_iff v
    simp only [toJsonD]
    rcases hv : toJson v with _ | j
    · simp only [true_iff]
      obtain ⟨w, hu, hc⟩ := h1.1 hv
      exact ⟨w, hu, .head k v r hc⟩
    · simp only [rejectedD_iff r]
      constructor
      · rintro ⟨w, hu, hc⟩; exact ⟨w, hu, .tail k v r hc⟩
      · rintro ⟨w, hu, hc⟩
        cases hc with
        | head _ _ _ h => have := h1.2 ⟨w, hu, h⟩; rw [hv] at this; cases this
        | tail _ _ _ h => exact ⟨w, hu, h⟩
end

/-- **C223** Options are refused exactly if somewhere inside there is an object of an unsupported class or an integer that does not fit a
`long`: nothing is dropped silently. -/
theorem C223_rejected (v : Py) : toJson v = none ↔ ∃ w, (w = .other ∨ ∃ z, w = .int z ∧ ¬ InLong z) ∧ Contains w v :=
  rejected_iff v

/-- **C223** An integer is accepted exactly from −9223372036854775808 to 9223372036854775807, unchanged. -/
theorem C223_integers (z : ℤ) : (toJson (.int z) ≠ none ↔ -9223372036854775808 ≤ z ∧ z ≤ 9223372036854775807) ∧
    (∀ j, toJson (.int z) = some j → j = .int z) := by
  have h : InLong z ↔ -9223372036854775808 ≤ z ∧ z ≤ 9223372036854775807 := by unfold InLong; omega
  constructor
  · rw [← h]
    by_cases hz : InLong z <;> simp [toJson, hz]
  · intro j hj
    by_cases hz : InLong z <;> simp [toJson, hz] at hj
    exact hj.symm

/-! ### Lemmas: back to Python -/

mutual
/-- Keys are unique and every float can be read back. -/
def JOk : Json → Prop
  | .float f => FltOk f
  | .arr l => JOkL l
  | .obj o => o.keys.Nodup ∧ JOkO o
  | _ => True
def JOkL : JL → Prop
  | .nil => True
  | .cons v r => JOk v ∧ JOkL r
def JOkO : JO → Prop
  | .nil => True
  | .cons _ v r => JOk v ∧ JOkO r
end

theorem jokO_set (o : JO) (k : String) (v : Json) (ho : JOkO o) (hv : JOk v) : JOkO (o.set k v) := by
  match o with
  | .nil => exact ⟨hv, trivial⟩
  | .cons k' v' r =>
    simp only [JO.set]
    split
    · exact ⟨hv, ho.2⟩
    · exact ⟨ho.1, jokO_set r k v ho.2 hv⟩

mutual
/-- Every float inside can be read back. -/
def FloatsOk : Py → Prop
  | .float f => FltOk f
  | .seq _ l => FloatsOkL l
  | .dict d => FloatsOkD d
  | _ => True
def FloatsOkL : PyL → Prop
  | .nil => True
  | .cons v r => FloatsOk v ∧ FloatsOkL r
def FloatsOkD : PyD → Prop
  | .nil => True
  | .cons _ v r => FloatsOk v ∧ FloatsOkD r
end

mutual
theorem toJson_ok : (v : Py) → (j : Json) → FloatsOk v → toJson v = some j → JOk j
  | .pyNone, j, _, h => by simp only [toJson, Option.some.injEq] at h; subst h; exact trivial
  | .bool _, j, _, h => by simp only [toJson, Option.some.injEq] at h; subst h; exact trivial
  | .str _, j, _, h => by simp only [toJson, Option.some.injEq] at h; subst h; exact trivial
  | .float f, j, hf, h => by simp only [toJson, Option.some.injEq] at h; subst h; exact hf
  | .int z, j, _, h => by
    simp only [toJson] at h
    split at h
    · simp only [Option.some.injEq] at h; subst h; exact trivial
    · simp at h
  | .other, j, _, h => by simp [toJson] at h
  | .seq t l, j, hf, h => by
    simp only [toJson] at h
    rcases hl : toJsonL l with _ | jl <;> rw [hl] at h
    · simp at h
    · simp only [Option.map_some, Option.some.injEq] at h
      subst h
      exact toJsonL_ok l jl hf hl
  | .dict d, j, hf, h => by
    simp only [toJson] at h
    rcases hl : toJsonD d .nil with _ | o <;> rw [hl] at h
    · simp at h
    · simp only [Option.map_some, Option.some.injEq] at h
      subst h
      exact toJsonD_ok d .nil o hf List.nodup_nil trivial hl
theorem toJsonL_ok : (l : PyL) → (jl : JL) → FloatsOkL l → toJsonL l = some jl → JOkL jl
  | .nil, jl, _, h => by simp only [toJsonL, Option.some.injEq] at h; subst h; exact trivial
  | .cons v r, jl, hf, h => by
    simp only [toJsonL] at h
    rcases hv : toJson v with _ | j <;> rw [hv] at h
    · simp at h
    · rcases hr : toJsonL r with _ | jr <;> rw [hr] at h
      · simp at h
      · simp only [Option.map_some, Option.some.injEq] at h
        subst h
        exact ⟨toJson_ok v j hf.1 hv, toJsonL_ok r jr hf.2 hr⟩
theorem toJsonD_ok : (d : PyD) → (out o : JO) → FloatsOkD d → out.keys.Nodup → JOkO out → toJsonD d out = some o →
    o.keys.Nodup ∧ JOkO o
  | .nil, out, o, _, h1, h2, h => by simp only [toJsonD, Option.some.injEq] at h; subst h; exact ⟨h1, h2⟩
  | .cons k v r, out, o, hf, h1, h2, h => by
    simp only [toJsonD] at h
    rcases hv : toJson v with _ | j <;> rw [hv] at h
    · simp at h
    · exact toJsonD_ok r _ o hf.2 (nodup_set out k j h1) (jokO_set out k j h2 (toJson_ok v j hf.1 hv)) h
end

theorem fromFlt_some (f : Flt) : FltOk f ↔ ∃ v, fromFlt f = some v := by
  cases f with
  | fin q =>
    simp only [FltOk, fromFlt]
    constructor
    · intro h
      split
      · rename_i e; rw [if_pos (h _ e)]; exact ⟨_, rfl⟩
      · exact ⟨_, rfl⟩
    · rintro ⟨v, hv⟩ z rfl
      rw [if_pos (by simp)] at hv
      split at hv
      · rename_i hz; simpa using hz
      · simp at hv
  | inf => simp [FltOk, fromFlt]
  | ninf => simp [FltOk, fromFlt]
  | nan => simp [FltOk, fromFlt]

mutual
theorem fromJson_some : (j : Json) → JOk j → ∃ v, fromJson j = some v
  | .null, _ => ⟨_, rfl⟩
  | .bool _, _ => ⟨_, rfl⟩
  | .int _, _ => ⟨_, rfl⟩
  | .str _, _ => ⟨_, rfl⟩
  | .float f, h => by simpa only [fromJson] using (fromFlt_some f).1 h
  | .arr l, h => by obtain ⟨w, hw⟩ := fromJsonL_some l h; exact ⟨_, by simp only [fromJson, hw, Option.map_some]; rfl⟩
  | .obj o, h => by obtain ⟨w, hw⟩ := fromJsonO_some o .nil h.2; exact ⟨_, by simp only [fromJson, hw, Option.map_some]; rfl⟩
theorem fromJsonL_some : (l : JL) → JOkL l → ∃ v, fromJsonL l = some v
  | .nil, _ => ⟨_, rfl⟩
  | .cons v r, h => by
    obtain ⟨w, hw⟩ := fromJson_some v h.1
    obtain ⟨wr, hr⟩ := fromJsonL_some r h.2
    exact ⟨_, by simp only [fromJsonL, hw, hr, Option.map_some]; rfl⟩
theorem fromJsonO_some : (o : JO) → (out : PyD) → JOkO o → ∃ v, fromJsonO o out = some v
  | .nil, out, _ => ⟨_, rfl⟩
  | .cons k v r, out, h => by
    obtain ⟨w, hw⟩ := fromJson_some v h.1
    simp only [fromJsonO, hw]
    exact fromJsonO_some r _ h.2
end

theorem fromJsonL_nth (l : JL) : ∀ (w : PyL), fromJsonL l = some w → l.length = w.length ∧
    ∀ n, (l.nth n = none ∧ w.nth n = none) ∨ ∃ j v, l.nth n = some j ∧ w.nth n = some v ∧ fromJson j = some v := by
  match l with
  | .nil => intro w h; simp only [fromJsonL, Option.some.injEq] at h; subst h; exact ⟨rfl, fun n => Or.inl ⟨rfl, rfl⟩⟩
  | .cons j r =>
    intro w h
    simp only [fromJsonL] at h
    rcases hv : fromJson j with _ | v <;> rw [hv] at h
    · simp at h
    · rcases hr : fromJsonL r with _ | wr <;> rw [hr] at h
      · simp at h
      · simp only [Option.map_some, Option.some.injEq] at h
        subst h
        have ih := fromJsonL_nth r wr hr
        refine ⟨by simp [PyL.length, JL.length, ih.1], fun n => ?_⟩
        cases n with
        | zero => exact Or.inr ⟨j, v, rfl, rfl, hv⟩
        | succ n => exact ih.2 n

theorem fromJsonO_get (o : JO) : ∀ (out w : PyD), o.keys.Nodup → fromJsonO o out = some w → ∀ s,
    (o.find s = none ∧ w.get s = out.get s) ∨ ∃ j v, o.find s = some j ∧ w.get s = some v ∧ fromJson j = some v := by
  match o with
  | .nil => intro out w _ h s; simp only [fromJsonO, Option.some.injEq] at h; subst h; exact Or.inl ⟨rfl, rfl⟩
  | .cons k j r =>
    intro out w hn h s
    simp only [JO.keys, List.nodup_cons] at hn
    simp only [fromJsonO] at h
    rcases hv : fromJson j with _ | v <;> rw [hv] at h
    · simp at h
    · by_cases e : k = s
      · subst e
        rcases fromJsonO_get r _ w hn.2 h k with ⟨_, h2⟩ | ⟨j', v', h1, _⟩
        · exact Or.inr ⟨j, v, by simp [JO.find], by rw [h2, get_set]; simp, hv⟩
        · rw [find_none r k hn.1] at h1; cases h1
      · rcases fromJsonO_get r _ w hn.2 h s with ⟨h1, h2⟩ | ⟨j', v', h1, h2, h3⟩
        · exact Or.inl ⟨by simp [JO.find, e, h1], by rw [h2, get_set, if_neg e]⟩
        · exact Or.inr ⟨j', v', by simp [JO.find, e, h1], h2, h3⟩

theorem jokL_nth (l : JL) (h : JOkL l) : ∀ n v, l.nth n = some v → JOk v := by
  match l with
  | .nil => intro n v e; simp [JL.nth] at e
  | .cons w r =>
    intro n v e
    cases n with
    | zero => simp only [JL.nth, Option.some.injEq] at e; exact e ▸ h.1
    | succ n => exact jokL_nth r h.2 n v e

theorem jokO_find (d : JO) (h : JOkO d) (s : String) (v : Json) (e : d.find s = some v) : JOk v := by
  match d with
  | .nil => simp [JO.find] at e
  | .cons k w r =>
    simp only [JO.find] at e
    split at e
    · simp only [Option.some.injEq] at e; exact e ▸ h.1
    · exact jokO_find r h.2 s v e

theorem sameValue_refl (a : Leaf) : SameValue a a := by cases a <;> simp [SameValue]

theorem same_leaf (j : Json) (v : Py) (h : fromJson j = some v) : SameValue j.leaf v.leaf := by
  match j with
  | .null | .bool _ | .int _ | .str _ => simp only [fromJson, Option.some.injEq] at h; subst h; exact sameValue_refl _
  | .float f =>
    simp only [fromJson] at h
    cases f with
    | fin q =>
      simp only [fromFlt] at h
      split at h
      · rename_i e
        split at h
        · simp only [Option.some.injEq] at h; subst h; exact e
        · simp at h
      · simp only [Option.some.injEq] at h; subst h; exact sameValue_refl _
    | inf => simp [fromFlt] at h
    | ninf => simp [fromFlt] at h
    | nan => simp only [fromFlt, Option.some.injEq] at h; subst h; exact sameValue_refl _
  | .arr l =>
    simp only [fromJson] at h
    rcases hl : fromJsonL l with _ | w <;> rw [hl] at h
    · simp at h
    · simp only [Option.map_some, Option.some.injEq] at h
      subst h
      simp only [Json.leaf, Py.leaf, (fromJsonL_nth l w hl).1]
      exact sameValue_refl _
  | .obj o =>
    simp only [fromJson] at h
    rcases hl : fromJsonO o .nil with _ | w <;> rw [hl] at h
    · simp at h
    · simp only [Option.map_some, Option.some.injEq] at h
      subst h
      exact sameValue_refl _

/-- What C++ reads and what Python gets back, at every path. -/
theorem fromJson_at (p : List Step) : ∀ (j : Json) (v : Py), JOk j → fromJson j = some v → SameAt (j.at p) (v.at p) := by
  induction p with
  | nil => intro j v _ h; exact same_leaf j v h
  | cons s p ih =>
    intro j v hj h
    match j with
    | .null | .bool _ | .int _ | .str _ => simp only [fromJson, Option.some.injEq] at h; subst h; cases s <;> exact trivial
    | .float f =>
      have : ∀ s p, Json.at (s :: p) (.float f) = none := by intro s p; cases s <;> rfl
      rw [this]
      simp only [fromJson] at h
      have : v.at (s :: p) = none := by
        cases f with
        | fin q =>
          simp only [fromFlt] at h
          split at h
          · split at h
            · simp only [Option.some.injEq] at h; subst h; cases s <;> rfl
            · simp at h
          · simp only [Option.some.injEq] at h; subst h; cases s <;> rfl
        | inf => simp [fromFlt] at h
        | ninf => simp [fromFlt] at h
        | nan => simp only [fromFlt, Option.some.injEq] at h; subst h; cases s <;> rfl
      rw [this]; exact trivial
    | .arr l =>
      simp only [fromJson] at h
      rcases hl : fromJsonL l with _ | w <;> rw [hl] at h
      · simp at h
      · simp only [Option.map_some, Option.some.injEq] at h
        subst h
        cases s with
        | key s => exact trivial
        | idx n =>
          simp only [Json.at, Py.at]
          rcases (fromJsonL_nth l w hl).2 n with ⟨h1, h2⟩ | ⟨j, v, h1, h2, h3⟩
          · rw [h1, h2]; exact trivial
          · rw [h1, h2]; exact ih j v (jokL_nth l hj n j h1) h3
    | .obj o =>
      simp only [fromJson] at h
      rcases hl : fromJsonO o .nil with _ | w <;> rw [hl] at h
      · simp at h
      · simp only [Option.map_some, Option.some.injEq] at h
        subst h
        cases s with
        | idx n => exact trivial
        | key s =>
          simp only [Json.at, Py.at]
          rcases fromJsonO_get o .nil w hj.1 hl s with ⟨h1, h2⟩ | ⟨j, v, h1, h2, h3⟩
          · rw [h1, h2]; exact trivial
          · rw [h1, h2]; exact ih j v (jokO_find o hj.2 s j h1) h3

/-- **C223** Reading the options back gives the same value at every path, provided no dictionary has two keys of the same text and every float inside is finite
or NaN and, if whole, fits a `long`.  (`SameValue`: a whole float comes back as an integer; a tuple comes back as a list.) -/
theorem C223_round_trip_partial (v : Py) (j : Json) (hd : Distinct v) (hf : FloatsOk v) (h : toJson v = some j) :
    ∃ w, fromJson j = some w ∧ ∀ p, SameAt (v.at p) (w.at p) := by
  have hj := toJson_ok v j hf h
  obtain ⟨w, hw⟩ := fromJson_some j hj
  exact ⟨w, hw, fun p => C223_arrives p v j hd h ▸ fromJson_at p j w hj hw⟩

/-- **C223** fails for the type of a number and of a tuple: every whole float that fits comes back as an integer, every tuple as a list. -/
theorem C223_types_false : (∀ z : ℤ, InLong z → (toJson (.float (.fin z))).bind fromJson = some (.int z)) ∧
    (∀ (l : PyL) (w : Py), (toJson (.seq true l)).bind fromJson = some w → ∃ l', w = .seq false l') := by
  refine ⟨fun z hz => by simp [toJson, fromJson, fromFlt, hz], fun l w h => ?_⟩
  simp only [toJson] at h
  rcases hl : toJsonL l with _ | jl <;> rw [hl] at h
  · simp at h
  · simp only [Option.map_some, Option.bind_some, fromJson] at h
    rcases hl' : fromJsonL jl with _ | w' <;> rw [hl'] at h
    · simp at h
    · simp only [Option.map_some, Option.some.injEq] at h
      exact ⟨w', h.symm⟩

/-- **C223** fails for large numbers: an infinite float, or a whole one from `2^63` on, is accepted and stored, and reading the options back is then
undefined. -/
theorem C223_large_false : (toJson (.float .inf)).bind fromJson = none ∧ (toJson (.float .ninf)).bind fromJson = none ∧
    (∀ z : ℤ, 2 ^ 63 ≤ z ∨ z < -(2 ^ 63) → toJson (.float (.fin z)) = some (.float (.fin z)) ∧ fromJson (.float (.fin z)) = none) := by
  refine ⟨rfl, rfl, fun z hz => ⟨rfl, ?_⟩⟩
  have : ¬ InLong z := by unfold InLong; omega
  simp [fromJson, fromFlt, this]

/-- **C223** fails if two keys have the same text, as `1` and `"1"` have: only the later value arrives. -/
theorem C223_same_text_false (k : String) (a b : Py) (ja jb : Json) (ha : toJson a = some ja) (hb : toJson b = some jb) :
    toJson (.dict (.cons k a (.cons k b .nil))) = some (.obj (.cons k jb .nil)) := by
  simp [toJson, toJsonD, ha, hb, JO.set]

/-! ### C224 -/

/-- The keys `type` options may be asked for. -/
def kindName : Kind → String
  | .magnetostatic => "magnetostatic"
  | .thermal => "thermal"

theorem putType_some (options type j : Json) : putType options type = some j ↔
    (∃ o, (options = .obj o ∨ (options = .null ∧ o = .nil)) ∧ j = .obj (o.set "solver-type" type)) := by
  cases options <;> simp [putType, eq_comm]

theorem initSolver_made (type options j : Json) (k : Kind) : initSolver type options = .made k j ↔
    typeName type = some (kindName k) ∧ putType options type = some j := by
  unfold initSolver
  rcases putType options type with _ | j'
  · simp
  rcases typeName type with _ | s
  · simp
  simp only [Option.some.injEq]
  by_cases h1 : s = "magnetostatic"
  · subst h1; cases k <;> simp [kindName]
  · by_cases h2 : s = "thermal"
    · subst h2; cases k <;> simp [kindName]
    · simp only [if_neg h1, if_neg h2, reduceCtorEq, false_iff]
      rintro ⟨h, _⟩
      cases k
      · exact h1 h
      · exact h2 h

/-- **C224** `PDESolver(name, options)` builds a solver exactly if the name is one of the two known ones and the options are `None` or a dictionary without
unsupported objects; its class is the one named. -/
theorem C224_by_name (s : String) (options : Py) (k : Kind) : (∃ j, pdeSolver (.str s) options = .made k j) ↔
    s = kindName k ∧ (options = .pyNone ∨ ∃ d, options = .dict d ∧ ∀ w, Unsupported w → ¬ Contains w options) := by
  have hrej := rejected_iff options
  simp only [pdeSolver]
  rcases ho : toJson options with _ | opts
  · simp only [reduceCtorEq, exists_false, false_iff]
    rintro ⟨_, rfl | ⟨d, _, h⟩⟩
    · simp [toJson] at ho
    · obtain ⟨w, hu, hc⟩ := hrej.1 ho; exact h w hu hc
  · have hcl : ∀ w, Unsupported w → ¬ Contains w options := fun w hu hc => by
      have := hrej.2 ⟨w, hu, hc⟩; rw [ho] at this; cases this
    simp only [initSolver_made, putType_some]
    have ht : typeName (.obj (.cons "type" (.str s) .nil)) = some s := by simp [typeName, JO.find]
    rw [ht]
    simp only [Option.some.injEq]
    constructor
    · rintro ⟨j, hs, o, h | ⟨h, _⟩, _⟩
      · refine ⟨hs, Or.inr ?_⟩
        subst h
        cases options with
        | dict d => exact ⟨d, rfl, hcl⟩
        | int z => simp only [toJson] at ho; split at ho <;> simp at ho
        | seq t l => simp only [toJson] at ho; rcases toJsonL l with _ | jl <;> simp at ho
        | _ => simp [toJson] at ho
      · refine ⟨hs, Or.inl ?_⟩
        subst h
        cases options with
        | pyNone => rfl
        | int z => simp only [toJson] at ho; split at ho <;> simp at ho
        | seq t l => simp only [toJson] at ho; rcases toJsonL l with _ | jl <;> simp at ho
        | dict l => simp only [toJson] at ho; rcases toJsonD l .nil with _ | jl <;> simp at ho
        | _ => simp [toJson] at ho
    · rintro ⟨hs, rfl | ⟨d, rfl, _⟩⟩
      · simp only [toJson, Option.some.injEq] at ho
        exact ⟨_, hs, .nil, Or.inr ⟨ho.symm, rfl⟩, rfl⟩
      · simp only [toJson] at ho
        rcases hd : toJsonD d .nil with _ | o <;> rw [hd] at ho
        · simp at ho
        · simp only [Option.map_some, Option.some.injEq] at ho
          exact ⟨_, hs, o, Or.inl ho.symm, rfl⟩

/-- **C224** A name and a dictionary with that name under `"type"` do the same. -/
theorem C224_name_or_dict (s : String) (options : Py) :
    pdeSolver (.dict (.cons "type" (.str s) .nil)) options = pdeSolver (.str s) options := by
  simp only [pdeSolver]
  rcases toJson options with _ | opts
  · rfl
  · simp [toJson, toJsonD, JO.set]

/-- **C224** A `type` that is no string must be a dictionary whose `"type"` is one of the two names, else no solver is built. -/
theorem C224_by_dict (d : PyD) (hd : Distinct (.dict d)) (options : Py) (k : Kind) (j : Json)
    (h : pdeSolver (.dict d) options = .made k j) : Py.at [.key "type"] (.dict d) = some (.str (kindName k)) := by
  simp only [pdeSolver] at h
  rcases ho : toJson options with _ | opts <;> rw [ho] at h
  · simp at h
  simp only at h
  rcases ht : toJson (.dict d) with _ | tj <;> rw [ht] at h
  · simp at h
  simp only [initSolver_made] at h
  rw [← C223_arrives [.key "type"] _ tj hd ht]
  have hn := h.1
  unfold typeName at hn
  split at hn
  · rename_i o
    simp only [Json.at]
    split at hn
    · rename_i s hf
      simp only [Option.some.injEq] at hn
      rw [hf, ← hn]; rfl
    · simp at hn
  · simp at hn

/-- **C224** The solver gets the options that were written, at every path that does not start with `"solver-type"`, and there the type that was given. -/
theorem C224_options (type options : Py) (k : Kind) (j : Json) (hd : Distinct options) (h : pdeSolver type options = .made k j) :
    (∀ s p, s ≠ "solver-type" → j.at (.key s :: p) = options.at (.key s :: p)) ∧
    (∀ s, type = .str s → j.at [.key "solver-type", .key "type"] = some (.str s)) ∧
    (∀ d, type = .dict d → Distinct type → ∀ p, j.at (.key "solver-type" :: p) = type.at p) := by
  simp only [pdeSolver] at h
  rcases ho : toJson options with _ | opts <;> rw [ho] at h
  · simp at h
  simp only at h
  have key : ∀ tj, initSolver tj opts = .made k j → (∀ s p, s ≠ "solver-type" → j.at (.key s :: p) = options.at (.key s :: p)) ∧
      ∀ p, j.at (.key "solver-type" :: p) = tj.at p := by
    intro tj hm
    rw [initSolver_made, putType_some] at hm
    obtain ⟨_, o, hopt, rfl⟩ := hm
    refine ⟨fun s p hs => ?_, fun p => by simp [Json.at, find_set]⟩
    rw [← C223_arrives _ options opts hd ho]
    rcases hopt with rfl | ⟨rfl, rfl⟩
    · simp [Json.at, find_set, Ne.symm hs]
    · simp [Json.at, find_set, Ne.symm hs, JO.find]
  cases type with
  | str s =>
    have := key _ h
    refine ⟨this.1, fun s' e => ?_, fun d e => (by cases e)⟩
    cases e
    rw [this.2]; simp [Json.at, JO.find, Json.leaf]
  | dict d =>
    simp only at h
    rcases ht : toJson (.dict d) with _ | tj <;> rw [ht] at h
    · simp at h
    have := key _ h
    refine ⟨this.1, fun s' e => (by cases e), fun d' e hdt p => ?_⟩
    rw [this.2, C223_arrives p _ tj hdt ht]
  | _ =>
    simp only at h
    split at h
    · simp at h
    · exact ⟨(key _ h).1, fun s' e => (by cases e), fun d e => (by cases e)⟩

/-- **C224** fails for a `"solver-type"` the user already put among the options: it is replaced without a word. -/
theorem C224_replaced_false (a : Json) (d : PyD) (o : JO) (ho : toJson (.dict d) = some (.obj o)) (_ : o.find "solver-type" = some a) :
    ∃ j, pdeSolver (.str "thermal") (.dict d) = .made .thermal j ∧ j.at [.key "solver-type", .key "type"] = some (.str "thermal") := by
  refine ⟨.obj (o.set "solver-type" (.obj (.cons "type" (.str "thermal") .nil))), ?_, ?_⟩
  · simp [pdeSolver, ho, initSolver, putType, typeName, JO.find]
  · simp [Json.at, find_set, JO.find, Json.leaf]

/-! ### Non-vacuity -/

/-- `{"mesh": {"file": "a.smb", "num": 3}, "lin": [1.5, (True, None)]}` -/
def sample : Py :=
  .dict (.cons "mesh" (.dict (.cons "file" (.str "a.smb") (.cons "num" (.int 3) .nil)))
    (.cons "lin" (.seq false (.cons (.float (.fin (3 / 2))) (.cons (.seq true (.cons (.bool true) (.cons .pyNone .nil))) .nil))) .nil))

example : Distinct sample := by simp [sample, Distinct, DistinctD, DistinctL, PyD.keys]
example : FloatsOk sample := by
  simp only [sample, FloatsOk, FloatsOkD, FloatsOkL, FltOk, and_true, true_and]
  intro z hz
  exfalso
  have h2 : (2 * z : ℤ) = 3 := by exact_mod_cast (by rw [← hz]; norm_num : (2 : ℚ) * z = 3)
  omega
example : ∃ j, toJson sample = some j ∧ j.at [.key "lin", .idx 1, .idx 0] = some (.bool true) ∧ j.at [.key "mesh", .key "num"] = some (.int 3) := by
  refine ⟨_, by simp only [sample, toJson, toJsonD, toJsonL, JO.set]; rfl, ?_, ?_⟩ <;>
    simp [Json.at, JO.find, JL.nth, Json.leaf]
example : toJson (.dict (.cons "a" (.seq false (.cons .other .nil)) .nil)) = none := by simp [toJson, toJsonD, toJsonL]
example : Contains .other (.dict (.cons "a" (.seq false (.cons .other .nil)) .nil)) :=
  .dict _ (.head _ _ _ (.seq _ _ (.head _ _ .here)))
example : ∃ j, pdeSolver (.str "magnetostatic") sample = .made .magnetostatic j :=
  ⟨_, by simp only [pdeSolver, sample, toJson, toJsonD, toJsonL, JO.set]; rfl⟩
example : pdeSolver (.str "euler") .pyNone = .raised := by simp [pdeSolver, toJson, initSolver, putType, typeName, JO.find]

end Verif.PyJson
