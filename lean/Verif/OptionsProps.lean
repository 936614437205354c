import Verif.Options

/-!
# Options: property theorems (C26)

Specification vocabulary: `Json.at j path` is the value reached by following the keys of `path`;
`Silent p path` says the user document `p` consists of objects along `path` up to a point where
the next key is not mentioned; `shape` is what can be observed at one node.
-/

namespace Verif.Options

/-- The value at a path. -/
def Json.at : Json → List String → Option Json
  | j, [] => some j
  | .obj f, k :: ks => match f.get k with
    | some v => v.at ks
    | none => none
  | _, _ :: _ => none

/-- The user document does not mention `path`, nor replaces anything on the way to it. -/
def Silent : Json → List String → Prop
  | .obj f, k :: ks => match f.get k with
    | some v => Silent v ks
    | none => True
  | _, _ => False

inductive Shape
  | null | leaf (s : String) | obj
  deriving DecidableEq

def shape : Json → Shape
  | .null => .null
  | .leaf s => .leaf s
  | .obj _ => .obj

/-! ### helper lemmas -/

private theorem members_obj (f : Fields) : (Json.obj f).members = f := rfl

private theorem get_put (l : Fields) (k x : String) (w : Json) :
    (l.put k w).get x = if k = x then some w else l.get x := by
  match l with
  | .nil => simp [Fields.put, Fields.get]
  | .cons k' v r =>
    have ih := get_put r k x w
    by_cases h : k' = k
    · subst h
      by_cases h2 : k' = x <;> simp [Fields.put, Fields.get, h2]
    · simp only [Fields.put, if_neg h, Fields.get]
      by_cases h2 : k' = x
      · subst h2; simp [Ne.symm h]
      · simp [h2, ih]

private theorem get_erase (l : Fields) (k x : String) :
    (l.erase k).get x = if k = x then none else l.get x := by
  match l with
  | .nil => simp [Fields.erase, Fields.get]
  | .cons k' v r =>
    have ih := get_erase r k x
    by_cases h : k' = k
    · subst h
      by_cases h2 : k' = x <;> simp_all [Fields.erase, Fields.get]
    · simp only [Fields.erase, if_neg h, Fields.get]
      by_cases h2 : k' = x
      · subst h2; simp [Ne.symm h]
      · simp [h2, ih]

private theorem get_none_of_not_mem (l : Fields) (k : String) (h : k ∉ l.keys) : l.get k = none := by
  match l with
  | .nil => rfl
  | .cons k' v r =>
    simp only [Fields.keys, List.mem_cons, not_or] at h
    simp only [Fields.get, if_neg (Ne.symm h.1)]
    exact get_none_of_not_mem r k h.2

private theorem get_mergeFields (ps : Fields) (hps : ps.WF) : ∀ (l : Fields) (x : String),
    (mergeFields l ps).get x = match ps.get x with
      | none => l.get x
      | some .null => none
      | some v => some (merge ((l.get x).getD .null) v) := by
  match ps with
  | .nil => intro l x; simp [mergeFields, Fields.get]
  | .cons k v r =>
    intro l x
    cases hps with | cons _ _ _ hk _ hr =>
    have ih := get_mergeFields r hr
    unfold mergeFields
    rw [ih]
    by_cases h : k = x
    · subst h
      have hn := get_none_of_not_mem r k hk
      simp only [hn, Fields.get, if_true]
      cases v <;> simp [get_put, get_erase, Json.isNull]
    · simp only [Fields.get, if_neg h]
      have : (if v.isNull then l.erase k else l.put k (merge ((l.get k).getD .null) v) : Fields).get x
          = l.get x := by
        cases v <;> simp [get_put, get_erase, h, Json.isNull]
      rw [this]

private theorem wf_get (f : Fields) (hf : f.WF) (k : String) (v : Json) (h : f.get k = some v) : v.WF := by
  match f with
  | .nil => simp [Fields.get] at h
  | .cons k' w r =>
    cases hf with | cons _ _ _ _ hw hr =>
    simp only [Fields.get] at h
    split at h
    · cases h; exact hw
    · exact wf_get r hr k v h

/-! ### C26 -/

/-- **C26** What the merged options hold at a top-level key: the default if the user does not mention it, nothing if
the user sets `null`, else the merge of the default there with the user's value. -/
theorem C26_lookup (d : Json) (p : Fields) (hp : p.WF) (k : String) :
    (solverOptions d (.obj p)).at [k] = match p.get k with
      | none => d.members.get k
      | some .null => none
      | some v => some (solverOptions ((d.members.get k).getD .null) v) := by
  simp only [solverOptions, merge, Json.at, get_mergeFields p hp]
  split <;> (rename_i heq; split at heq <;> simp_all)

/-- **C26** Anything the user's document does not mention, at any depth, keeps its default (including being absent). -/
theorem C26_unspecified_kept (ks : List String) : ∀ (d p : Json), p.WF → Silent p ks →
    (solverOptions d p).at ks = d.at ks := by
  induction ks with
  | nil => intro d p _ h; cases p <;> simp [Silent] at h
  | cons k ks ih =>
    intro d p hp h
    match p, hp with
    | .null, _ => simp [Silent] at h
    | .leaf s, _ => simp [Silent] at h
    | .obj f, .obj _ hp =>
      simp only [solverOptions, merge, Json.at, get_mergeFields f hp]
      simp only [Silent] at h
      cases hk : f.get k with
      | none =>
        simp only
        cases d <;> simp [Json.members, Fields.get, Json.at]
      | some v =>
        simp only [hk] at h
        have hv := wf_get f hp k v hk
        cases ks with
        | nil => cases v <;> simp [Silent] at h
        | cons k2 ks2 =>
          have := ih ((d.members.get k).getD .null) v hv h
          cases v with
          | null => simp [Silent] at h
          | leaf s => simp [Silent] at h
          | obj g =>
            simp only [solverOptions] at this
            simp only [this]
            cases d with
            | null => simp [Json.members, Fields.get, Json.at]
            | leaf s => simp [Json.members, Fields.get, Json.at]
            | obj e =>
              simp only [Json.members, Json.at]
              cases e.get k <;> simp [Json.at]

/-- **C26** A value (not an object, not `null`) given by the user at any depth is what the solver sees. -/
theorem C26_specified_wins (ks : List String) : ∀ (d p : Json), p.WF → ∀ s, p.at ks = some (.leaf s) →
    (solverOptions d p).at ks = some (.leaf s) := by
  induction ks with
  | nil => intro d p _ s h; simp only [Json.at, Option.some.injEq] at h; subst h; simp [solverOptions, merge, Json.at]
  | cons k ks ih =>
    intro d p hp s h
    match p, hp with
    | .null, _ => simp [Json.at] at h
    | .leaf s, _ => simp [Json.at] at h
    | .obj f, .obj _ hp =>
      simp only [solverOptions, merge, Json.at, get_mergeFields f hp]
      simp only [Json.at] at h
      cases hk : f.get k with
      | none => simp [hk] at h
      | some v =>
        simp only [hk] at h
        have := ih ((d.members.get k).getD .null) v (wf_get f hp k v hk) s h
        cases v with
        | null => cases ks <;> simp [Json.at] at h
        | leaf s => simpa [solverOptions] using this
        | obj g => simpa [solverOptions] using this

/-- **C26** A `null` given by the user at any (nonempty) path removes the key, default or not. -/
theorem C26_null_removes (ks : List String) (hne : ks ≠ []) : ∀ (d p : Json), p.WF →
    p.at ks = some .null → (solverOptions d p).at ks = none := by
  induction ks with
  | nil => exact absurd rfl hne
  | cons k ks ih =>
    intro d p hp h
    match p, hp with
    | .null, _ => simp [Json.at] at h
    | .leaf s, _ => simp [Json.at] at h
    | .obj f, .obj _ hp =>
      simp only [solverOptions, merge, Json.at, get_mergeFields f hp]
      simp only [Json.at] at h
      cases hk : f.get k with
      | none => simp [hk] at h
      | some v =>
        simp only [hk] at h
        cases ks with
        | nil => simp only [Json.at, Option.some.injEq] at h; subst h; simp
        | cons k2 ks2 =>
          have := ih (by simp) ((d.members.get k).getD .null) v (wf_get f hp k v hk) h
          cases v with
          | null => simp [Json.at] at h
          | leaf s => simp [Json.at] at h
          | obj g => simpa [solverOptions] using this

/-- **C26** Applying the same user document a second time changes nothing observable. -/
theorem C26_idempotent (ks : List String) : ∀ (d p : Json), p.WF →
    ((solverOptions (solverOptions d p) p).at ks).map shape = ((solverOptions d p).at ks).map shape := by
  induction ks with
  | nil => intro d p _; cases p <;> simp [solverOptions, merge, Json.at, shape]
  | cons k ks ih =>
    intro d p hp
    match p, hp with
    | .null, _ => simp [solverOptions, merge]
    | .leaf s, _ => simp [solverOptions, merge]
    | .obj f, .obj _ hp =>
      simp only [solverOptions, merge, Json.at, get_mergeFields f hp, members_obj]
      cases hk : f.get k with
      | none => rfl
      | some v =>
        have := ih ((d.members.get k).getD .null) v (wf_get f hp k v hk)
        cases v with
        | null => rfl
        | leaf s => simpa [solverOptions] using this
        | obj g => simpa [solverOptions] using this

/-- A nested example meeting the hypotheses: one default kept, one overridden, one removed. -/
example :
    let d : Json := .obj (.cons "time-dis" (.obj (.cons "dt" (.leaf "0.1") (.cons "steady" (.leaf "false") .nil)))
      (.cons "silent" (.leaf "false") .nil))
    let u : Json := .obj (.cons "time-dis" (.obj (.cons "dt" (.leaf "0.5") .nil)) (.cons "silent" .null .nil))
    u.WF ∧ Silent u ["time-dis", "steady"] ∧
    (solverOptions d u).at ["time-dis", "steady"] = some (.leaf "false") ∧
    (solverOptions d u).at ["time-dis", "dt"] = some (.leaf "0.5") ∧
    (solverOptions d u).at ["silent"] = none := by
  refine ⟨?_, by simp [Silent, Fields.get], ?_, ?_, ?_⟩
  · exact .obj _ (.cons _ _ _ (by simp [Fields.keys]) (.obj _ (.cons _ _ _ (by simp [Fields.keys]) (.leaf _) .nil))
      (.cons _ _ _ (by simp [Fields.keys]) .null .nil))
  all_goals
    simp [solverOptions, merge, mergeFields, Json.at, Json.members, Fields.get, Fields.put, Fields.erase, Json.isNull]

end Verif.Options
