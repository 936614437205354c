import Verif.LoadsLemmas
import Mathlib.Algebra.Field.Rat
import Mathlib.Data.Rat.Defs
import Mathlib.Data.List.Nodup
import Mathlib.Tactic.Ring
import Mathlib.Tactic.Abel
import Mathlib.Tactic.FinCases
import Mathlib.Tactic.NormNum
import Mathlib.Tactic.LinearCombination

/-!
# Properties of the current loads and of the magnetostatic residual's current-density derivatives (C41–C43)

## Specification
A client makes a history of `Call`s on the load (exceptions are caught by the client and it carries on).
`latestDensity`, `latestCoords`, `latestEss` are what the history itself says the inputs are.
-/

namespace Verif.Loads

open Verif.Inputs

variable {K : Type} {n : ℕ} {C : Type}

inductive Call (n : ℕ) (C K : Type)
  | setInputs (i : Inputs K) (coords : Option C)
  | setOptions (ess : Option (List (Fin n)))
  | addLoad (tv : Vec n K)
  | dDensity (bar : Vec n K) (wrt : String)
  | dCoords

/-- The object after an outcome, `none` after undefined behaviour. -/
def Out.state? {σ α : Type} : Out σ α → Option σ
  | .ok s _ => some s
  | .threw s => some s
  | .ub => none

def call [Field K] [DecidableEq K] (A : Asm n C K) (l : CurLoad n C K) : Call n C K → Option (CurLoad n C K)
  | .setInputs i c => (l.setInputs i c).state?
  | .setOptions e => some (l.setOptions e)
  | .addLoad tv => (l.addLoad A tv).state?
  | .dDensity bar wrt => (l.vjpScalar A bar wrt).state?
  | .dCoords => (l.vjpCoords A).state?

def run [Field K] [DecidableEq K] (A : Asm n C K) (l : CurLoad n C K) : List (Call n C K) → Option (CurLoad n C K)
  | [] => some l
  | c :: h => (call A l c).bind fun l' => run A l' h

/-- The value a call supplies for group `g`'s current density. -/
def supplied (g : String) : Call n C K → Option K
  | .setInputs i _ => match i (cdKey g) with
    | some (.val x) => some x
    | _ => none
  | _ => none

def coordsOf : Call n C K → Option C
  | .setInputs _ c => c
  | _ => none

def essOf : Call n C K → Option (List (Fin n))
  | .setOptions e => e
  | _ => none

/-- The last value given, starting from `x0`. -/
def latest {α : Type} (x0 : α) (f : Call n C K → Option α) (h : List (Call n C K)) : α := ((h.filterMap f).getLast?).getD x0

theorem latest_snoc {α : Type} (x0 : α) (f : Call n C K → Option α) (h : List (Call n C K)) (c : Call n C K) :
    latest x0 f (h ++ [c]) = (f c).getD (latest x0 f h) := by
  unfold latest
  rw [List.filterMap_append]
  cases hc : f c with
  | none => simp [hc]
  | some y => simp [hc]

theorem run_snoc [Field K] [DecidableEq K] (A : Asm n C K) (l : CurLoad n C K) (h : List (Call n C K)) (c : Call n C K) :
    run A l (h ++ [c]) = (run A l h).bind fun l' => call A l' c := by
  induction h generalizing l with
  | nil => cases hc : call A l c <;> simp [run, hc]
  | cons d h ih =>
    simp only [List.cons_append, run]
    cases call A l d with
    | none => rfl
    | some l' => simpa using ih l'

/-- Calls covered by the positive theorem: every input passed by the client is a scalar (so nothing throws), and no derivative is requested for a name that
is itself the plain name of a group. -/
def Benign (groups : List String) : Call n C K → Prop
  | .setInputs i _ => AllScalar i
  | .dDensity _ wrt => wrt ∉ groups
  | _ => True

/-- The assembled load depends on the current densities of its groups only. -/
def DependsOn (groups : List String) (A : Asm n C K) : Prop :=
  ∀ X g g', (∀ k ∈ groups, g k = g' k) → A.load X g = A.load X g'

/-- The object is in the state the history prescribes. -/
structure Good [Field K] (A : Asm n C K) (groups : List String) (C0 : C) (ess0 : List (Fin n)) (h : List (Call n C K)) (l : CurLoad n C K) : Prop where
  gk : l.cur.gkeys = groups
  ck : l.cur.ckeys = groups
  g : ∀ k ∈ groups, l.cur.g k = latest 1 (supplied k) h
  x : l.coords = latest C0 coordsOf h
  e : l.ess = latest ess0 essOf h
  fresh : l.dirty = false → zeroEss l.ess l.load = zeroEss l.ess (A.load l.coords l.cur.g)

theorem zeroEss_idem [Zero K] (e : List (Fin n)) (v : Vec n K) : zeroEss e (zeroEss e v) = zeroEss e v := by
  funext i; unfold zeroEss; split <;> rfl

theorem zeroEss_mono [Zero K] {e e' : List (Fin n)} (h : e ⊆ e') {v w : Vec n K} (hv : zeroEss e v = zeroEss e w) : zeroEss e' v = zeroEss e' w := by
  funext i
  have := congrFun hv i
  unfold zeroEss at *
  by_cases hi : i ∈ e'
  · simp [hi]
  · have : i ∉ e := fun q => hi (h q)
    simp_all

/-- Effect of the scalar derivative product on a well-formed object. -/
theorem vjpScalar_spec [Field K] [DecidableEq K] {A : Asm n C K} (hA : A.stator = false) {groups : List String} (hnd : groups.Nodup)
    {l : CurLoad n C K} (hgk : l.cur.gkeys = groups) (hck : l.cur.ckeys = groups) (bar : Vec n K) (wrt : String) (hw : wrt ∉ groups) :
    ∃ d ld, l.vjpScalar A bar wrt = .ok { l with cur := d, dirty := true, load := ld } (-(ld ⬝ᵥ bar)) ∧ d.gkeys = groups ∧ d.ckeys = groups ∧
      (∀ k, d.g k = l.cur.g k) ∧
      ld = zeroEss l.ess (A.load l.coords fun k => if k ∈ groups then (if cdKey k = wrt then 1 else 0) else l.cur.g k) := by
  have hin : AllScalar (fun k => if k = wrt then some (Input.val (1 : K)) else none) := by
    intro k v; dsimp only; split <;> simp
  have hc := cache_spec l.cur (by rw [hgk, hck]; exact fun _ h => h)
  set d1 : Density K := { l.cur with c := fun k => if k ∈ l.cur.gkeys then l.cur.g k else l.cur.c k } with hd1
  have hz := zero_spec d1
  -- `setInputs` keeps the cache since `wrt` is not a group name
  set d2 : Density K := d1.zero with hd2
  have g2 : d2.gkeys = groups := by rw [hz]; simp [hd1, hgk]
  have c2 : d2.ckeys = groups := by rw [hz]; simp [hd1, hck]
  have hset : ∃ b, d2.setInputs (fun k => if k = wrt then some (Input.val (1 : K)) else none) =
      ({ d2 with g := fun k => if k ∈ groups then (if cdKey k = wrt then 1 else d2.g k) else d2.g k }, b, true) := by
    obtain ⟨b1, h1, -⟩ := loop_setg hin d2.gkeys (g2 ▸ hnd) (d2, false)
    have hid : ∀ (ks : List String) (s : Density K × Bool), (∀ k ∈ ks, k ≠ wrt) →
        loop (setCached (fun k => if k = wrt then some (Input.val (1 : K)) else none)) ks s = (s, true) := by
      intro ks
      induction ks with
      | nil => intro s _; rfl
      | cons k ks ih =>
        intro s hs
        have hk : k ≠ wrt := hs k (by simp)
        have : setCached (fun k => if k = wrt then some (Input.val (1 : K)) else none) s k = (s, true) := by
          unfold setCached setValueFromInputs
          simp [hk]
        rw [loop, this]
        exact ih s fun j hj => hs j (List.mem_cons_of_mem _ hj)
    refine ⟨b1, ?_⟩
    unfold Density.setInputs
    rw [h1]
    simp only
    rw [hid _ _ (fun k hk e => hw (e ▸ c2 ▸ hk))]
    simp only [g2]
    congr 2
    funext k
    by_cases hk : k ∈ groups
    · by_cases he : cdKey k = wrt <;> simp [hk, he, scalarOr]
    · simp [hk]
  obtain ⟨b, hset⟩ := hset
  set d3 : Density K := { d2 with g := fun k => if k ∈ groups then (if cdKey k = wrt then 1 else d2.g k) else d2.g k } with hd3
  have hr := reset_spec d3 (by
    intro k hk
    have : k ∈ groups := by simpa [hd3, c2] using hk
    simpa [hd3, g2] using this)
  refine ⟨{ d3 with g := fun k => if k ∈ d3.ckeys then d3.c k else d3.g k }, _, ?_, ?_, ?_, ?_, rfl⟩
  · unfold CurLoad.vjpScalar
    rw [hc]
    simp only
    rw [hset]
    simp only [CurLoad.assemble, hA, Bool.false_eq_true, if_false]
    rw [hr]
    have hg3 : d3.g = fun k => if k ∈ groups then (if cdKey k = wrt then 1 else 0) else l.cur.g k := by
      funext k
      by_cases hk : k ∈ groups
      · simp [hd3, hk, hz, hd1, hgk]
      · simp [hd3, hk, hz, hd1, hgk]
    rw [hg3]
  · simpa [hd3] using g2
  · simpa [hd3] using c2
  · intro k
    by_cases hk : k ∈ groups
    · have h3 : k ∈ d3.ckeys := by simpa [hd3, c2] using hk
      simp only [h3, if_true]
      simp [hd3, hz, hd1, hgk, hk]
    · have h3 : k ∉ d3.ckeys := by simpa [hd3, c2] using hk
      simp only [h3, if_false]
      simp [hd3, hk, hz, hd1, hgk]

theorem good_run [Field K] [DecidableEq K] {A : Asm n C K} (hA : A.stator = false) {groups : List String} (hnd : groups.Nodup) 
    (sl len : K) (C0 : C) (ess0 : List (Fin n)) (junk : Vec n K) (h : List (Call n C K))
    (hb : ∀ c ∈ h, Benign groups c) (he : (ess0 :: h.filterMap essOf).Pairwise (· ⊆ ·)) :
    ∃ l, run A (CurLoad.new groups false sl len C0 ess0 junk) h = some l ∧ Good A groups C0 ess0 h l := by
  induction h using List.reverseRecOn with
  | nil =>
    refine ⟨_, rfl, ?_⟩
    constructor <;> simp [CurLoad.new, Density.new, latest]
  | append_singleton h c ih =>
    have he' : (ess0 :: h.filterMap essOf).Pairwise (· ⊆ ·) := by
      rw [List.filterMap_append] at he
      exact he.sublist (List.Sublist.cons_cons _ (List.sublist_append_left _ _))
    obtain ⟨l, hl, G⟩ := ih (fun d hd => hb d (List.mem_append_left _ hd)) he'
    rw [run_snoc, hl]
    simp only [Option.bind_some]
    have hbc := hb c (by simp)
    cases c with
    | setInputs i X =>
      obtain ⟨b, c', h1, h2⟩ := setInputs_spec (d := l.cur) (hbc : AllScalar i) (by rw [G.gk]; exact hnd)
      refine ⟨_, by simp only [call, CurLoad.setInputs, h1]; rfl, ?_⟩
      have hgf : ∀ k ∈ groups, scalarOr i (cdKey k) (l.cur.g k) = (supplied k (Call.setInputs (n := n) i X)).getD (l.cur.g k) := by
        intro k _
        unfold scalarOr supplied
        cases hk : i (cdKey k) with
        | none => simp [hk]
        | some v => cases v <;> simp [hk]
      constructor
      · exact G.gk
      · exact G.ck
      · intro k hk
        rw [latest_snoc, ← G.g k hk, ← hgf k hk]
        simp [G.gk, hk]
      · rw [latest_snoc, ← G.x]; rfl
      · rw [latest_snoc, ← G.e]; rfl
      · intro hd
        simp only [Bool.or_eq_false_iff] at hd
        obtain ⟨⟨hd0, hdb⟩, hX⟩ := hd
        have hX' : X = none := by cases X <;> simp_all
        subst hX'
        have hgeq : (fun k => if k ∈ l.cur.gkeys then scalarOr i (cdKey k) (l.cur.g k) else l.cur.g k) = l.cur.g := by
          funext k
          by_cases hk : k ∈ l.cur.gkeys
          · simp [hk, h2 hdb k hk]
          · simp [hk]
        simp only [hgeq, Option.getD_none]
        exact G.fresh hd0
    | setOptions e =>
      refine ⟨_, rfl, ?_⟩
      have hsub : l.ess ⊆ e.getD l.ess := by
        cases e with
        | none => simp
        | some e =>
          rw [G.e]
          have hlast : latest ess0 essOf h ∈ ess0 :: h.filterMap essOf := by
            unfold latest
            cases hq : (h.filterMap essOf).getLast? with
            | none => simp
            | some y => exact List.mem_cons_of_mem _ (List.mem_of_getLast? hq)
          rw [List.filterMap_append, ← List.cons_append, List.pairwise_append] at he
          exact he.2.2 _ hlast e (by simp [essOf])
      constructor
      · exact G.gk
      · exact G.ck
      · intro k hk; rw [latest_snoc, ← G.g k hk]; rfl
      · rw [latest_snoc, ← G.x]; rfl
      · rw [latest_snoc, ← G.e]; rfl
      · intro hd
        exact zeroEss_mono hsub (G.fresh hd)
    | addLoad tv =>
      cases hd : l.dirty with
      | false =>
        refine ⟨_, by simp only [call, CurLoad.addLoad, hd, Out.state?]; rfl, ?_⟩
        constructor
        · exact G.gk
        · exact G.ck
        · intro k hk; rw [latest_snoc, ← G.g k hk]; rfl
        · rw [latest_snoc, ← G.x]; rfl
        · rw [latest_snoc, ← G.e]; rfl
        · intro hd'
          simp only [zeroEss_idem]
          exact G.fresh hd'
      | true =>
        refine ⟨_, by simp only [call, CurLoad.addLoad, CurLoad.assemble, hA, hd, Out.state?]; rfl, ?_⟩
        constructor
        · exact G.gk
        · exact G.ck
        · intro k hk; rw [latest_snoc, ← G.g k hk]; rfl
        · rw [latest_snoc, ← G.x]; rfl
        · rw [latest_snoc, ← G.e]; rfl
        · intro hd'
          simp only [zeroEss_idem]
    | dDensity bar wrt =>
      obtain ⟨d, ld, h1, hg, hc, hsame, -⟩ := vjpScalar_spec hA hnd G.gk G.ck bar wrt hbc
      refine ⟨_, by simp only [call, h1, Out.state?]; rfl, ?_⟩
      constructor
      · exact hg
      · exact hc
      · intro k hk; rw [latest_snoc, ← G.g k hk]; exact hsame k
      · rw [latest_snoc, ← G.x]; rfl
      · rw [latest_snoc, ← G.e]; rfl
      · intro hd; exact absurd hd (by simp)
    | dCoords =>
      cases hd : l.dirty with
      | false =>
        refine ⟨_, by simp only [call, CurLoad.vjpCoords, hd, Out.state?]; rfl, ?_⟩
        constructor
        · exact G.gk
        · exact G.ck
        · intro k hk; rw [latest_snoc, ← G.g k hk]; rfl
        · rw [latest_snoc, ← G.x]; rfl
        · rw [latest_snoc, ← G.e]; rfl
        · intro hd'; exact G.fresh hd'
      | true =>
        refine ⟨_, by simp only [call, CurLoad.vjpCoords, CurLoad.assemble, hA, hd, Out.state?]; rfl, ?_⟩
        constructor
        · exact G.gk
        · exact G.ck
        · intro k hk; rw [latest_snoc, ← G.g k hk]; rfl
        · rw [latest_snoc, ← G.x]; rfl
        · rw [latest_snoc, ← G.e]; rfl
        · intro hd'; rfl

theorem good_addLoad [Field K] [DecidableEq K] {A : Asm n C K} (hA : A.stator = false) {groups : List String} (hdep : DependsOn groups A)
    {C0 : C} {ess0 : List (Fin n)} {h : List (Call n C K)} {l : CurLoad n C K} (G : Good A groups C0 ess0 h l) (tv : Vec n K) :
    ∃ l', l.addLoad A tv = .ok l' (tv - zeroEss (latest ess0 essOf h) (A.load (latest C0 coordsOf h) fun k => latest 1 (supplied k) h)) := by
  have hl : A.load l.coords l.cur.g = A.load (latest C0 coordsOf h) fun k => latest 1 (supplied k) h := by
    rw [← G.x]; exact hdep _ _ _ G.g
  cases hd : l.dirty with
  | false =>
    have : ∃ l', l.addLoad A tv = .ok l' (tv - zeroEss l.ess l.load) := ⟨_, by simp only [CurLoad.addLoad, hd]; rfl⟩
    obtain ⟨l', q⟩ := this
    exact ⟨l', by rw [q, ← hl, ← G.e, ← G.fresh hd]⟩
  | true =>
    have : ∃ l', l.addLoad A tv = .ok l' (tv - zeroEss l.ess (A.load l.coords l.cur.g)) :=
      ⟨_, by simp only [CurLoad.addLoad, CurLoad.assemble, hA, hd]; rfl⟩
    obtain ⟨l', q⟩ := this
    exact ⟨l', by rw [q, hl, G.e]⟩

/-! ## C41 -/

/-- C41 (partial).  Whatever history of input updates, option updates, load additions and derivative products precedes, `addLoad` subtracts the load assembled for the
current densities, coordinates and essential dofs the history prescribes — provided nothing threw, no stator source is used, and option updates only ever
enlarge the essential set.  Missing (and false, see below): histories in which the client catches an exception, or un-marks an essential dof. -/
theorem C41_addLoad_fresh_partial [Field K] [DecidableEq K] (A : Asm n C K) (hA : A.stator = false) (groups : List String) (hnd : groups.Nodup)
    (hdep : DependsOn groups A) (sl len : K) (C0 : C) (ess0 : List (Fin n)) (junk : Vec n K) (h : List (Call n C K))
    (hb : ∀ c ∈ h, Benign groups c) (he : (ess0 :: h.filterMap essOf).Pairwise (· ⊆ ·)) (tv : Vec n K) :
    ∃ l l', run A (CurLoad.new groups false sl len C0 ess0 junk) h = some l ∧
      l.addLoad A tv = .ok l' (tv - zeroEss (latest ess0 essOf h) (A.load (latest C0 coordsOf h) fun k => latest 1 (supplied k) h)) := by
  obtain ⟨l, hl, G⟩ := good_run hA hnd sl len C0 ess0 junk h hb he
  obtain ⟨l', q⟩ := good_addLoad hA hdep G tv
  exact ⟨l, l', hl, q⟩

/-- One dof, load = density of "a" + 10 * density of "b" (no dependence on coordinates). -/
def A1 : Asm 2 Unit ℚ := ⟨fun _ g i => if i = 0 then g "a" + 10 * g "b" else g "b", false⟩

/-- Non-vacuity: `A1` meets the hypotheses with a history that sets, evaluates and differentiates. -/
example : DependsOn ["a", "b"] A1 ∧ (["a", "b"] : List String).Nodup ∧
    (∀ c ∈ ([.setInputs (fun k => if k = "current_density:a" then some (.val 3) else none) none, .addLoad 0, .dDensity 1 "current_density:b", .setOptions (some [0])]
      : List (Call 2 Unit ℚ)), Benign ["a", "b"] c) := by
  refine ⟨?_, by decide, ?_⟩
  · intro X g g' h
    funext i
    simp [A1, h "a" (by simp), h "b" (by simp)]
  · intro c hc
    simp only [List.mem_cons, List.mem_nil_iff, or_false] at hc
    rcases hc with rfl | rfl | rfl | rfl
    · intro k v; dsimp only; split <;> simp
    · trivial
    · simp [Benign]
    · trivial

def bad : Inputs ℚ := fun k => if k = "current_density:a" then some (.val 3) else if k = "current_density:b" then some (.vec ⟨0, 1⟩) else none

/-- C41 is false when the client catches an exception: the first group's density has been stored but the load is not marked out of date, so later calls keep
subtracting the old load (10 + 1 = 11 instead of 10 + 3 = 13). -/
theorem C41_false_after_caught_exception : ∃ l l' v, run A1 (CurLoad.new ["a", "b"] false 0 0 () [] 0) [.addLoad 0, .setInputs bad none] = some l ∧
    l.cur.g "a" = 3 ∧ l.addLoad A1 0 = .ok l' v ∧ v 0 = -11 ∧ (0 - A1.load () l.cur.g) 0 = -13 := by
  refine ⟨_, _, _, rfl, ?_, rfl, ?_, ?_⟩ <;> decide +kernel

/-- C41 is false when options remove a dof from the essential list: its load entry was zeroed in place and is not reassembled. -/
theorem C41_false_after_unmarking : ∃ l l' v, run A1 (CurLoad.new ["a", "b"] false 0 0 () [1] 0) [.addLoad 0, .setOptions (some [])] = some l ∧
    l.addLoad A1 0 = .ok l' v ∧ v 1 = 0 ∧ (0 - A1.load () l.cur.g) 1 = -1 := by
  refine ⟨_, _, _, rfl, rfl, ?_, ?_⟩ <;> decide +kernel

/-- With a stator source every assembly is undefined behaviour (the source's lambda holds references to dead locals). -/
theorem C41_false_stator_undefined [Field K] [DecidableEq K] (A : Asm n C K) (hA : A.stator = true) (groups : List String) (sl len : K) (C0 : C)
    (ess0 : List (Fin n)) (junk tv : Vec n K) : (CurLoad.new groups true sl len C0 ess0 junk).addLoad A tv = .ub := by
  simp [CurLoad.addLoad, CurLoad.new, CurLoad.assemble, hA]

/-! ## C42 -/

/-- The residual contribution `addLoad` makes (on a zero vector) after the client sets group `g`'s density to `t`. -/
def contribution [Field K] [DecidableEq K] (A : Asm n C K) (l : CurLoad n C K) (g : String) (t : K) : Option (Vec n K) :=
  match l.setInputs (fun k => if k = cdKey g then some (.val t) else none) none with
  | .ok l' _ => match l'.addLoad A 0 with
    | .ok _ v => some v
    | _ => none
  | _ => none

/-- The load is linear in the group densities. -/
def LinearIn (groups : List String) (A : Asm n C K) [Field K] : Prop :=
  ∀ X, ∃ U : String → Vec n K, ∀ g, A.load X g = (groups.map fun k => g k • U k).sum

theorem cdKey_inj {a b : String} (h : cdKey a = cdKey b) : a = b := by
  unfold cdKey at h
  have : ("current_density:" ++ a).toList = ("current_density:" ++ b).toList := by rw [h]
  rw [String.toList_append, String.toList_append] at this
  exact String.ext (List.append_cancel_left this)

theorem sum_single [Field K] (groups : List String) (hnd : groups.Nodup) (U : String → Vec n K) (a b : String → K) (g : String) (hg : g ∈ groups)
    (hab : ∀ k, k ≠ g → a k = b k) :
    (groups.map fun k => a k • U k).sum - (groups.map fun k => b k • U k).sum = (a g - b g) • U g := by
  induction groups with
  | nil => simp at hg
  | cons k ks ih =>
    obtain ⟨hk, hnd'⟩ := List.nodup_cons.1 hnd
    simp only [List.map_cons, List.sum_cons]
    by_cases hkg : k = g
    · subst hkg
      have : (ks.map fun j => a j • U j) = ks.map fun j => b j • U j := by
        apply List.map_congr_left
        intro j hj
        rw [hab j (fun e => hk (e ▸ hj))]
      rw [this, sub_smul]
      abel
    · have hgk : g ∈ ks := by
        rcases List.mem_cons.1 hg with e | e
        · exact absurd e.symm hkg
        · exact e
      rw [← ih hnd' hgk, hab k hkg]
      abel

theorem zeroEss_sub [Field K] (e : List (Fin n)) (v w : Vec n K) : zeroEss e v - zeroEss e w = zeroEss e (v - w) := by
  funext i; simp only [zeroEss, Pi.sub_apply]; split <;> simp

theorem zeroEss_smul [Field K] (e : List (Fin n)) (t : K) (v : Vec n K) : zeroEss e (t • v) = t • zeroEss e v := by
  funext i; simp only [zeroEss, Pi.smul_apply]; split <;> simp

/-- C42 (3D load).  After any benign history, the product with respect to a group's current density is the exact derivative of the load's residual contribution
(the contribution is affine in the density, and the product is its slope in direction `bar`), and the stored densities are unchanged. -/
theorem C42_density_derivative_partial [Field K] [DecidableEq K] (A : Asm n C K) (hA : A.stator = false) (groups : List String) (hnd : groups.Nodup)
    (hdep : DependsOn groups A) (hlin : LinearIn groups A) (sl len : K) (C0 : C) (ess0 : List (Fin n)) (junk : Vec n K) (h : List (Call n C K))
    (hb : ∀ c ∈ h, Benign groups c) (he : (ess0 :: h.filterMap essOf).Pairwise (· ⊆ ·))
    (g : String) (hg : g ∈ groups) (hw : cdKey g ∉ groups) (bar : Vec n K) :
    ∃ l l' v, run A (CurLoad.new groups false sl len C0 ess0 junk) h = some l ∧ l.vjpScalar A bar (cdKey g) = .ok l' v ∧
      (∀ k, l'.cur.g k = l.cur.g k) ∧
      ∀ s t, ∃ rs rt, contribution A l g s = some rs ∧ contribution A l g t = some rt ∧ bar ⬝ᵥ rt - bar ⬝ᵥ rs = (t - s) * v := by
  obtain ⟨l, hl, G⟩ := good_run hA hnd sl len C0 ess0 junk h hb he
  obtain ⟨d, ld, h1, hgk, hck, hsame, hld⟩ := vjpScalar_spec hA hnd G.gk G.ck bar (cdKey g) hw
  refine ⟨l, _, _, hl, h1, hsame, ?_⟩
  have hcon : ∀ t, contribution A l g t = some (-zeroEss l.ess (A.load l.coords (Function.update l.cur.g g t))) := by
    intro t
    have hin : AllScalar (fun k => if k = cdKey g then some (Input.val t) else none) := by
      intro k v; dsimp only; split <;> simp
    have hb' : ∀ c ∈ h ++ [Call.setInputs (n := n) (fun k => if k = cdKey g then some (Input.val t) else none) none], Benign groups c := by
      intro c hc
      rcases List.mem_append.1 hc with hc | hc
      · exact hb c hc
      · rw [List.mem_singleton.1 hc]; exact hin
    have he' : (ess0 :: (h ++ [Call.setInputs (n := n) (C := C) (fun k => if k = cdKey g then some (Input.val t) else none) none]).filterMap essOf).Pairwise (· ⊆ ·) := by
      rw [List.filterMap_append]; exact (List.append_nil (h.filterMap essOf)).symm ▸ he
    obtain ⟨l2, hl2, G2⟩ := good_run hA hnd sl len C0 ess0 junk _ hb' he'
    rw [run_snoc, hl] at hl2
    simp only [Option.bind_some, call] at hl2
    obtain ⟨b, c', hq, -⟩ := setInputs_spec (d := l.cur) hin (by rw [G.gk]; exact hnd)
    unfold contribution
    simp only [CurLoad.setInputs, hq, Out.state?, Option.some.injEq] at hl2 ⊢
    obtain ⟨l3, hq3⟩ := good_addLoad hA hdep G2 0
    rw [← hl2] at hq3
    simp only [Option.getD_none] at hq3 ⊢
    rw [hq3]
    rw [zero_sub]
    simp only [latest_snoc]
    have e1 : latest ess0 essOf h = l.ess := G.e.symm
    have e2 : latest C0 coordsOf h = l.coords := G.x.symm
    simp only [essOf, coordsOf, Option.getD_none, e1, e2]
    congr 1
    refine congrArg (fun v => -zeroEss l.ess v) (hdep _ _ _ ?_)
    intro k hk
    by_cases hkg : k = g
    · subst hkg; simp [supplied]
    · have : cdKey k ≠ cdKey g := fun e => hkg (cdKey_inj e)
      simp [supplied, this, hkg, G.g k hk]
  intro s t
  refine ⟨_, _, hcon s, hcon t, ?_⟩
  obtain ⟨U, hU⟩ := hlin l.coords
  have hdiff : A.load l.coords (Function.update l.cur.g g t) - A.load l.coords (Function.update l.cur.g g s) = (t - s) • U g := by
    rw [hU, hU, sum_single groups hnd U _ _ g hg]
    · simp
    · intro k hk; simp [hk]
  have hunit : A.load l.coords (fun k => if k ∈ groups then (if cdKey k = cdKey g then 1 else 0) else l.cur.g k) = U g := by
    have h0 : A.load l.coords (fun _ => 0) = 0 := by
      rw [hU]; simp
    have := sum_single groups hnd U (fun k => if k = g then (1 : K) else 0) (fun _ => 0) g hg (by intro k hk; simp [hk])
    rw [← hU, ← hU, h0] at this
    simp only [sub_zero, if_true, one_smul] at this
    rw [← this]
    apply hdep
    intro k hk
    by_cases hkg : k = g
    · simp [hkg, hg]
    · have : cdKey k ≠ cdKey g := fun e => hkg (cdKey_inj e)
      simp [hk, this, hkg]
  rw [hld, hunit]
  rw [← dotProduct_sub]
  have : -zeroEss l.ess (A.load l.coords (Function.update l.cur.g g t)) - -zeroEss l.ess (A.load l.coords (Function.update l.cur.g g s))
      = -((t - s) • zeroEss l.ess (U g)) := by
    rw [← zeroEss_smul, ← hdiff, ← zeroEss_sub]; abel
  rw [this, dotProduct_neg, dotProduct_smul, dotProduct_comm, smul_eq_mul]
  ring

/-- Non-vacuity of the linearity hypothesis. -/
example : LinearIn ["a", "b"] A1 := by
  intro X
  refine ⟨fun k i => if k = "a" then (if i = 0 then 1 else 0) else (if i = 0 then 10 else 1), ?_⟩
  intro g
  funext i
  fin_cases i <;> simp [A1]
  ring

/-- C42 is false for a load with a stator source listed (even with no element using it): restoring the densities throws `std::out_of_range` because the slot count
is stored among the cached densities; the exception leaves the load not marked out of date, so later additions use the *unit* load. -/
theorem C42_false_stator_key : ∃ l l1 l2 v, run A1 (CurLoad.new ["a", "b"] true 24 1 () [] 0) [.setInputs (fun k => if k = "current_density:a" then some (.val 3) else none) none, .addLoad 0] = some l ∧
    l.vjpScalar A1 1 "current_density:b" = .threw l1 ∧ l1.addLoad A1 0 = .ok l2 v ∧ v 0 = -10 ∧ (0 - A1.load () l1.cur.g) 0 = -13 := by
  refine ⟨_, _, _, _, rfl, rfl, rfl, ?_, ?_⟩ <;> decide +kernel

/-- C42 is false for a group whose plain name is another group's input key: the derivative call overwrites its density with 1. -/
theorem C42_false_prefixed_group : ∃ l l1 v, run A1 (CurLoad.new ["a", "current_density:a"] false 0 0 () [] 0)
      [.setInputs (fun k => if k = "current_density:current_density:a" then some (.val 7) else none) none] = some l ∧ l.cur.g "current_density:a" = 7 ∧
    l.vjpScalar A1 1 "current_density:a" = .ok l1 v ∧ l1.cur.g "current_density:a" = 1 := by
  refine ⟨_, _, _, rfl, ?_, rfl, ?_⟩ <;> decide +kernel

/-! ## C43 -/

theorem unitLoad_spec [Field K] [DecidableEq K] (L : (String → K) → Vec n K) {groups : List String} (hnd : groups.Nodup) {d : Density K}
    (hgk : d.gkeys = groups) (hck : d.ckeys = groups) (ess lfEss : List (Fin n)) (mag : Vec n K) (wrt : String) (hw : wrt ∉ groups) :
    ∃ d', Res2D.unitLoad L ⟨some d, ess, lfEss, mag⟩ wrt = .ok ⟨some d', ess, lfEss, mag⟩
      (zeroEss ess (zeroEss lfEss (L (fun k => if k ∈ groups then (if cdKey k = wrt then 1 else 0) else d.g k) + mag))) ∧
      d'.gkeys = groups ∧ d'.ckeys = groups ∧ ∀ k, d'.g k = d.g k := by
  -- reuse the 3D lemma on a load object with the same densities
  let A : Asm n Unit K := ⟨fun _ g => L g, false⟩
  let l : CurLoad n Unit K := ⟨d, (), [], 0, true⟩
  obtain ⟨d', ld, h1, h2, h3, h4, h5⟩ := vjpScalar_spec (A := A) rfl hnd (l := l) hgk hck 0 wrt hw
  unfold CurLoad.vjpScalar at h1
  have hc := cache_spec d (by rw [hgk, hck]; exact fun _ h => h)
  have hl : l.cur = d := rfl
  rw [hl, hc] at h1
  unfold Res2D.unitLoad
  simp only [hc] at h1 ⊢
  revert h1
  cases hs : Density.setInputs (Density.zero { d with c := fun k => if k ∈ d.gkeys then d.g k else d.c k }) (fun k => if k = wrt then some (Input.val (1 : K)) else none) with
  | mk d3 r =>
    obtain ⟨b, ok⟩ := r
    cases ok with
    | false => intro h1; simp at h1
    | true =>
      simp only [CurLoad.assemble, A, Bool.false_eq_true, if_false]
      cases hr : d3.reset with
      | mk d5 ok5 =>
        cases ok5 with
        | false => intro h1; simp at h1
        | true =>
          intro h1
          simp only [Out.ok.injEq, CurLoad.mk.injEq] at h1
          obtain ⟨⟨hd5, -, -, hload, -⟩, -⟩ := h1
          refine ⟨d', ?_, h2, h3, h4⟩
          subst hd5
          have : L d3.g = L (fun k => if k ∈ groups then (if cdKey k = wrt then 1 else 0) else d.g k) := by
            rw [h5] at hload
            funext i
            have := congrFun hload i
            simpa [zeroEss, A, l] using this
          simp only [Res2D.addLoad, zero_add, this]

/-- Residual of `evaluate` after setting group `g` to `t` (`nl` is the part that does not depend on the current). -/
def resAt [Field K] [DecidableEq K] (L : (String → K) → Vec n K) (r : Res2D n K) (nl : Vec n K) (g : String) (t : K) : Option (Vec n K) :=
  match r.evaluate L (fun k => if k = cdKey g then some (.val t) else none) nl with
  | .ok _ v => some v
  | _ => none

/-- C43 (partial: no magnets, planar meshes).  The forward and reverse products with respect to a current density are the exact derivative of the
residual (which is affine in it), accumulate into the result, and leave the densities unchanged. -/
theorem C43_current_only_partial [Field K] [DecidableEq K] (L : (String → K) → Vec n K) (groups : List String) (hnd : groups.Nodup)
    (hlin : LinearIn groups (⟨fun _ g => L g, false⟩ : Asm n Unit K)) (d : Density K) (hgk : d.gkeys = groups) (hck : d.ckeys = groups)
    (ess : List (Fin n)) (g : String) (hg : g ∈ groups) (hw : cdKey g ∉ groups) (nl : Vec n K) (wrtDot : K) (resDot resBar : Vec n K) :
    ∃ d' jv v, Res2D.jvp L ⟨some d, ess, ess, 0⟩ (cdKey g) wrtDot resDot = .ok ⟨some d', ess, ess, 0⟩ (resDot + jv) ∧
      Res2D.vjp L ⟨some d, ess, ess, 0⟩ (cdKey g) resBar = .ok ⟨some d', ess, ess, 0⟩ v ∧ (∀ k, d'.g k = d.g k) ∧
      ∀ s t, ∃ rs rt, resAt L ⟨some d, ess, ess, 0⟩ nl g s = some rs ∧ resAt L ⟨some d, ess, ess, 0⟩ nl g t = some rt ∧
        wrtDot • (rt - rs) = (t - s) • jv ∧ resBar ⬝ᵥ (rt - rs) = (t - s) * v := by
  obtain ⟨d', h1, -, -, h4⟩ := unitLoad_spec L hnd hgk hck ess ess 0 (cdKey g) hw
  have hL : ∀ a b : String → K, (∀ k ∈ groups, a k = b k) → L a = L b := by
    intro a b hab
    obtain ⟨U, hU⟩ := hlin ()
    have ha := hU a
    have hb := hU b
    simp only at ha hb
    rw [ha, hb]
    congr 1
    exact List.map_congr_left fun k hk => by rw [hab k hk]
  obtain ⟨U, hU⟩ := hlin ()
  have hunit : L (fun k => if k ∈ groups then (if cdKey k = cdKey g then 1 else 0) else d.g k) = U g := by
    have := sum_single groups hnd U (fun k => if k = g then (1 : K) else 0) (fun _ => 0) g hg (by intro k hk; simp [hk])
    rw [← hU, ← hU] at this
    have h0 : L (fun _ => 0) = 0 := by have := hU (fun _ => 0); simp only at this; rw [this]; simp
    simp only [h0, sub_zero, if_true, one_smul] at this
    rw [← this]
    apply hL
    intro k hk
    by_cases hkg : k = g
    · simp [hkg, hg]
    · have : cdKey k ≠ cdKey g := fun e => hkg (cdKey_inj e)
      simp [hk, this, hkg]
  rw [add_zero, hunit, zeroEss_idem] at h1
  refine ⟨d', wrtDot • zeroEss ess (U g), zeroEss ess (U g) ⬝ᵥ resBar, by simp only [Res2D.jvp, h1], by simp only [Res2D.vjp, h1], h4, ?_⟩
  have hres : ∀ t, resAt L ⟨some d, ess, ess, 0⟩ nl g t = some (nl + zeroEss ess (L (Function.update d.g g t))) := by
    intro t
    have hin : AllScalar (fun k => if k = cdKey g then some (Input.val t) else none) := by
      intro k v; dsimp only; split <;> simp
    obtain ⟨b, c', hq, -⟩ := setInputs_spec (d := d) hin (by rw [hgk]; exact hnd)
    unfold resAt Res2D.evaluate Res2D.setInputs
    simp only [hq, Res2D.addLoad, add_zero]
    congr 3
    apply hL
    intro k hk
    by_cases hkg : k = g
    · subst hkg; simp [hgk, hk, scalarOr]
    · have : cdKey k ≠ cdKey g := fun e => hkg (cdKey_inj e)
      simp [hgk, hk, scalarOr, this, hkg]
  intro s t
  refine ⟨_, _, hres s, hres t, ?_⟩
  have hdiff : L (Function.update d.g g t) - L (Function.update d.g g s) = (t - s) • U g := by
    have h1 := hU (Function.update d.g g t)
    have h2 := hU (Function.update d.g g s)
    simp only at h1 h2
    rw [h1, h2, sum_single groups hnd U _ _ g hg]
    · simp
    · intro k hk; simp [hk]
  have hz : nl + zeroEss ess (L (Function.update d.g g t)) - (nl + zeroEss ess (L (Function.update d.g g s))) = (t - s) • zeroEss ess (U g) := by
    rw [add_sub_add_left_eq_sub, zeroEss_sub, hdiff, zeroEss_smul]
  rw [hz]
  constructor
  · rw [smul_comm]
  · rw [dotProduct_smul, dotProduct_comm, smul_eq_mul]

/-- The two products are adjoint to each other even with magnets. -/
theorem C43_products_adjoint [Field K] [DecidableEq K] (L : (String → K) → Vec n K) (groups : List String) (hnd : groups.Nodup) (d : Density K)
    (hgk : d.gkeys = groups) (hck : d.ckeys = groups) (ess lfEss : List (Fin n)) (mag : Vec n K) (wrt : String) (hw : wrt ∉ groups) (wrtDot : K) (resBar : Vec n K) :
    ∃ r jv v, Res2D.jvp L ⟨some d, ess, lfEss, mag⟩ wrt wrtDot 0 = .ok r jv ∧ Res2D.vjp L ⟨some d, ess, lfEss, mag⟩ wrt resBar = .ok r v ∧
      resBar ⬝ᵥ jv = wrtDot * v := by
  obtain ⟨d', h1, -⟩ := unitLoad_spec L hnd hgk hck ess lfEss mag wrt hw
  refine ⟨_, _, _, by simp only [Res2D.jvp, h1]; rfl, by simp only [Res2D.vjp, h1]; rfl, ?_⟩
  rw [zero_add, dotProduct_smul, dotProduct_comm, smul_eq_mul]

/-- C43 is false with magnets: the "derivative" also contains the magnetisation load.  Unit current load 1, magnet load 5: residual `nl + t + 5` has slope 1, the
code returns 6. -/
theorem C43_false_with_magnets : ∃ d' rs rt, Res2D.vjp (n := 1) (K := ℚ) (fun g _ => g "a") ⟨some (Density.new ["a"] false 0 0), [], [], fun _ => 5⟩ "current_density:a" (fun _ => 1)
      = .ok d' 6 ∧
    resAt (n := 1) (K := ℚ) (fun g _ => g "a") ⟨some (Density.new ["a"] false 0 0), [], [], fun _ => 5⟩ 0 "a" 0 = some rs ∧
    resAt (n := 1) (K := ℚ) (fun g _ => g "a") ⟨some (Density.new ["a"] false 0 0), [], [], fun _ => 5⟩ 0 "a" 1 = some rt ∧ rt 0 - rs 0 = 1 := by
  have h : ∃ d' v, Res2D.vjp (n := 1) (K := ℚ) (fun g _ => g "a") ⟨some (Density.new ["a"] false 0 0), [], [], fun _ => 5⟩ "current_density:a" (fun _ => 1) = .ok d' v ∧ v = 6 := by
    refine ⟨_, _, rfl, ?_⟩
    decide +kernel
  obtain ⟨d', v, hv, rfl⟩ := h
  refine ⟨d', _, _, hv, rfl, rfl, ?_⟩
  decide +kernel

/-- On volume meshes the residual has no current coefficient of its own, and both products dereference a null pointer. -/
theorem C43_false_volume_null [Field K] [DecidableEq K] (L : (String → K) → Vec n K) (ess lfEss : List (Fin n)) (mag : Vec n K) (wrt : String) (wrtDot : K)
    (resDot resBar : Vec n K) : Res2D.jvp L ⟨none, ess, lfEss, mag⟩ wrt wrtDot resDot = .ub ∧ Res2D.vjp L ⟨none, ess, lfEss, mag⟩ wrt resBar = .ub := ⟨rfl, rfl⟩

end Verif.Loads
