import Verif.CurrentField
import Verif.SourceAssemblyProps
import Verif.LoadsLemmas
import Mathlib.Analysis.Calculus.Deriv.Add
import Mathlib.Analysis.Calculus.Deriv.Mul

/-! # The current density field: property theorems (C221) -/

namespace Verif.CurrentField

open Verif.Source Verif.Loads Verif.Dense Verif.Inputs

/-! ### Specification -/

/-- The last value a sequence of input sets gives to the name `key`, `x0` if none does. -/
def lastValue (key : String) (x0 : ℝ) : List (Inputs ℝ) → ℝ
  | [] => x0
  | i :: rest => lastValue key (match i key with | some (.val v) => v | _ => x0) rest

/-- The sources a two-dimensional problem has, and the axial current density (per unit of the group's density) each stands for. -/
def Axial (src : String) (y J : ℝ) : Prop :=
  (src = "z" ∧ J = 1) ∨ (src = "-z" ∧ J = -1) ∨ (src = "box1" ∧ J = 3 - 6 * y) ∨ (src = "box2" ∧ J = 6 * y - 3)

/-! ### Lemmas -/

theorem run_spec (c : CurCoeff) (h : List (Inputs ℝ)) (hs : ∀ i ∈ h, AllScalar i) (hn : c.den.gkeys.Nodup) :
    ∃ c', c.run h = some c' ∧ c'.attrs = c.attrs ∧ c'.den.gkeys = c.den.gkeys ∧
      ∀ k ∈ c.den.gkeys, c'.den.g k = lastValue (cdKey k) (c.den.g k) h := by
  induction h generalizing c with
  | nil => exact ⟨c, rfl, rfl, rfl, fun _ _ => rfl⟩
  | cons i h ih =>
    obtain ⟨b, c1, h1, -⟩ := setInputs_spec (hs i (by simp)) c.den hn
    simp only [CurCoeff.run, h1]
    obtain ⟨c', hr, ha, hg, hv⟩ := ih { c with den := { c.den with g := fun k => if k ∈ c.den.gkeys then scalarOr i (cdKey k) (c.den.g k) else c.den.g k, c := c1 } }
      (fun j hj => hs j (List.mem_cons_of_mem _ hj)) hn
    refine ⟨c', hr, ha, hg, fun k hk => ?_⟩
    rw [hv k hk]
    simp only [hk, if_true, lastValue]
    congr 1
    unfold scalarOr
    cases i (cdKey k) with
    | none => rfl
    | some v => cases v <;> rfl

theorem new_g {groups : List String} {b : Bool} {s l : ℝ} (k : String) : (Density.new groups b s l).g k = 1 := rfl
theorem new_gk {groups : List String} {b : Bool} {s l : ℝ} : (Density.new groups b s l).gkeys = groups := rfl

theorem lists_name {o : Groups} {grp src : String} {a : ℤ} (h : Lists o grp src a) : grp ∈ groupNames o := by
  obtain ⟨srcs, _, h1, -, -⟩ := h
  exact List.mem_map.2 ⟨_, h1, rfl⟩

theorem find_listed {known : String → Bool} {o : Groups} {m : AttrMap} (h : addGroups known o [] = some m) {a : ℤ} {grp src : String}
    (hl : Lists o grp src a) (hk : known src) : find m a = some (grp, src) := by
  have hkeys := addGroups_keys known o [] m h (by simp)
  exact find_mem m hkeys a grp src (((addGroups_spec known o []).2 m h _).2 (Or.inr ⟨grp, src, a, hl, hk, rfl⟩))

theorem find_unlisted {known : String → Bool} {o : Groups} {m : AttrMap} (h : addGroups known o [] = some m) {a : ℤ}
    (hno : ¬ ∃ grp src, Lists o grp src a ∧ known src) : find m a = none :=
  find_none m a fun e he hea => by
    rcases ((addGroups_spec known o []).2 m h e).1 he with h | ⟨grp, src, b, hl, hkn, rfl⟩
    · simp at h
    · simp only at hea; subst hea; exact hno ⟨grp, src, hl, hkn⟩

/-! ### C221 -/

/-- **C221** The two- and the three-dimensional coefficient accept the options exactly when no attribute is given to two of the
sources they know. -/
theorem C221_accept (o : Groups) :
    ((new2 o).isSome ↔ (knownAttrs (fun s => (dir2 s).isSome) o).Nodup) ∧
    ((new3 o).isSome ↔ (knownAttrs (fun s => (currentDir 24 0.345 s).isSome) o).Nodup) := by
  constructor
  · rw [new2, Option.isSome_map, (addGroups_spec _ o []).1]; simp
  · rw [new3, Option.isSome_map, (addGroups_spec _ o []).1]; simp

/-- **C221** Two dimensions: after any sequence of input updates, on an element listed under a group the coefficient is minus
the axial direction of its source times the density last given to that group under `current_density:<group>` (1 if none was);
on elements not listed under a known source it is zero. -/
theorem C221_plane (o : Groups) (hn : (groupNames o).Nodup) (c0 : CurCoeff) (h0 : new2 o = some c0) (h : List (Inputs ℝ))
    (hs : ∀ i ∈ h, AllScalar i) (a : ℤ) (x : V2) :
    ∃ c, c0.run h = some c ∧
      (∀ grp src J, Lists o grp src a → Axial src (x 1) J →
        c.eval2 a x = -(lastValue ("current_density:" ++ grp) 1 h * J)) ∧
      ((¬ ∃ grp src, Lists o grp src a ∧ src ∈ ["z", "-z", "box1", "box2"]) → c.eval2 a x = 0) := by
  obtain ⟨m, hm, rfl⟩ := Option.map_eq_some_iff.1 h0
  obtain ⟨c, hr, ha, -, hv⟩ := run_spec ⟨Density.new (groupNames o) false 0 0, m⟩ h hs hn
  refine ⟨c, hr, fun grp src J hl hJ => ?_, fun hno => ?_⟩
  · have key : ∀ f, dir2 src = some f → c.eval2 a x = -(lastValue ("current_density:" ++ grp) 1 h * f x) := by
      intro f hf
      unfold CurCoeff.eval2
      rw [ha, find_listed hm hl (by simp [hf])]
      simp only [hf]
      rw [hv grp (by rw [new_gk]; exact lists_name hl), new_g]
      simp only [cdKey]; ring
    rcases hJ with ⟨rfl, rfl⟩ | ⟨rfl, rfl⟩ | ⟨rfl, rfl⟩ | ⟨rfl, rfl⟩
    · rw [key _ rfl]
    · rw [key _ rfl]
    · rw [key _ rfl]; ring
    · rw [key _ rfl]; ring
  · have : find m a = none := find_unlisted hm (a := a) fun ⟨grp, src, hl, hk⟩ => hno ⟨grp, src, hl, by
      unfold dir2 at hk
      split at hk <;> simp_all⟩
    unfold CurCoeff.eval2
    rw [ha, this]; simp

/-- **C221** Three dimensions: the same for the sources that do not depend on stator parameters: the density last given to the
group times the direction field of the source at the point. -/
theorem C221_space (o : Groups) (hn : (groupNames o).Nodup) (c0 : CurCoeff) (h0 : new3 o = some c0) (h : List (Inputs ℝ))
    (hs : ∀ i ∈ h, AllScalar i) (a : ℤ) (x : V3) :
    ∃ c, c0.run h = some c ∧
      (∀ grp src F, Lists o grp src a →
        (src, F) ∈ [("x", xAxis), ("y", yAxis), ("z", zAxis), ("-z", nzAxis), ("ring", ring), ("box1", box1), ("box2", box2), ("team13", team13)] →
        c.eval3 a x = (F x).map fun d i => lastValue ("current_density:" ++ grp) 1 h * d i) ∧
      ((¬ ∃ grp src, Lists o grp src a ∧
          src ∈ ["x", "y", "z", "-z", "ring", "box1", "box2", "team13", "cwStator", "ccwStator"]) → c.eval3 a x = some 0) := by
  obtain ⟨m, hm, rfl⟩ := Option.map_eq_some_iff.1 h0
  obtain ⟨c, hr, ha, -, hv⟩ := run_spec ⟨Density.new (groupNames o) (hasStator o) 24 0.345, m⟩ h hs hn
  refine ⟨c, hr, fun grp src F hl hF => ?_, fun hno => ?_⟩
  · have key : ∀ f, currentDir 24 0.345 src = some f →
        c.eval3 a x = (f x).map fun d i => lastValue ("current_density:" ++ grp) 1 h * d i := by
      intro f hf
      unfold CurCoeff.eval3
      rw [ha, find_listed hm hl (by simp [hf])]
      simp only [hf, Option.bind_some]
      rw [hv grp (by rw [new_gk]; exact lists_name hl), new_g]
      simp only [cdKey]
    simp only [List.mem_cons, Prod.mk.injEq, List.not_mem_nil, or_false] at hF
    rcases hF with ⟨rfl, rfl⟩ | ⟨rfl, rfl⟩ | ⟨rfl, rfl⟩ | ⟨rfl, rfl⟩ | ⟨rfl, rfl⟩ | ⟨rfl, rfl⟩ | ⟨rfl, rfl⟩ | ⟨rfl, rfl⟩ <;>
      exact key _ rfl
  · have : find m a = none := find_unlisted hm (a := a) fun ⟨grp, src, hl, hk⟩ => hno ⟨grp, src, hl, by
      unfold currentDir at hk
      split at hk <;> simp_all⟩
    unfold CurCoeff.eval3
    rw [ha, this]

/-- **C221** The two-dimensional coefficient is minus the axial component of the three-dimensional one: with the options both
accept and after the same updates, on every element whose source is one of the four two-dimensional ones. -/
theorem C221_consistent (o : Groups) (hn : (groupNames o).Nodup) (c2 c3 : CurCoeff) (h2 : new2 o = some c2) (h3 : new3 o = some c3)
    (h : List (Inputs ℝ)) (hs : ∀ i ∈ h, AllScalar i) (a : ℤ) (grp src : String) (hl : Lists o grp src a)
    (hsrc : src ∈ ["z", "-z", "box1", "box2"]) (x : V3) :
    ∃ d2 d3 J, c2.run h = some d2 ∧ c3.run h = some d3 ∧ d3.eval3 a x = some J ∧ J 0 = 0 ∧ J 1 = 0 ∧
      d2.eval2 a ![x 0, x 1] = -J 2 := by
  obtain ⟨d2, hr2, hv2, -⟩ := C221_plane o hn c2 h2 h hs a ![x 0, x 1]
  obtain ⟨d3, hr3, hv3, -⟩ := C221_space o hn c3 h3 h hs a x
  simp only [List.mem_cons, List.not_mem_nil, or_false] at hsrc
  rcases hsrc with rfl | rfl | rfl | rfl
  · refine ⟨d2, d3, _, hr2, hr3, hv3 grp _ zAxis hl (by simp), ?_, ?_, ?_⟩
    · simp
    · simp
    · rw [hv2 grp _ 1 hl (Or.inl ⟨rfl, rfl⟩)]; simp
  · refine ⟨d2, d3, _, hr2, hr3, hv3 grp _ nzAxis hl (by simp), ?_, ?_, ?_⟩
    · simp
    · simp
    · rw [hv2 grp _ (-1) hl (Or.inr (Or.inl ⟨rfl, rfl⟩))]; simp
  · refine ⟨d2, d3, _, hr2, hr3, hv3 grp _ box1 hl (by simp), ?_, ?_, ?_⟩
    · simp
    · simp
    · rw [hv2 grp _ _ hl (Or.inr (Or.inr (Or.inl ⟨rfl, rfl⟩)))]; simp; ring
  · refine ⟨d2, d3, _, hr2, hr3, hv3 grp _ box2 hl (by simp), ?_, ?_, ?_⟩
    · simp
    · simp
    · rw [hv2 grp _ _ hl (Or.inr (Or.inr (Or.inr ⟨rfl, rfl⟩)))]; simp; left; ring

/-- **C221** The reverse pass of the two-dimensional coefficient is the derivative with respect to the mesh nodes: for every
element, every motion of its nodes and every weight (the caller clears `x_bar` before it calls the source's reverse function). -/
theorem C221_mesh_derivative {n : ℕ} (c : CurCoeff) (a : ℤ) (P δ : Fin 2 → Fin n → ℝ) (N : Fin n → ℝ) (qbar : ℝ) :
    HasDerivAt (fun t : ℝ => qbar * c.eval2 a (pointAt (fun i k => P i k + t * δ i k) N))
      (∑ i, ∑ k, c.rev2 0 a N qbar i k * δ i k) 0 := by
  have hy : HasDerivAt (fun t : ℝ => pointAt (fun i k => P i k + t * δ i k) N 1) (∑ k, δ 1 k * N k) 0 := by
    have : (fun t : ℝ => pointAt (fun i k => P i k + t * δ i k) N 1) = fun t => (∑ k, P 1 k * N k) + t * ∑ k, δ 1 k * N k := by
      funext t
      simp only [pointAt, Finset.mul_sum, ← Finset.sum_add_distrib]
      exact Finset.sum_congr rfl fun k _ => by ring
    rw [this]
    simpa using ((hasDerivAt_id' (0 : ℝ)).mul_const (∑ k, δ 1 k * N k)).const_add (∑ k, P 1 k * N k)
  unfold CurCoeff.eval2 CurCoeff.rev2
  cases hf : find c.attrs a with
  | none => simpa using hasDerivAt_const (0 : ℝ) (0 : ℝ)
  | some e =>
    obtain ⟨grp, src⟩ := e
    simp only
    have zero : (∀ x y, dir2 src = some x → x y = x 0) → dir2Rev 0 src = (fun _ => 0) → HasDerivAt
        (fun t : ℝ => qbar * (-1 * (match dir2 src with | none => 0 | some f => c.den.g grp * f (pointAt (fun i k => P i k + t * δ i k) N))))
        (∑ i, ∑ k, dir2Rev 0 src (qbar * -1 * c.den.g grp) i * N k * δ i k) 0 := by
      intro hc h0
      rw [h0]
      simp only [Pi.zero_apply, zero_mul, Finset.sum_const_zero]
      cases hd : dir2 src with
      | none => simpa using hasDerivAt_const (0 : ℝ) (0 : ℝ)
      | some f =>
        simp only
        have : ∀ y, f y = f 0 := fun y => hc f y hd
        simp only [this]
        exact hasDerivAt_const _ _
    have lin : ∀ s : ℝ, dir2 src = some (fun x => s * (x 1 - 0.5)) → (∀ b, dir2Rev 0 src b = ![0, s * b]) → HasDerivAt
        (fun t : ℝ => qbar * (-1 * (match dir2 src with | none => 0 | some f => c.den.g grp * f (pointAt (fun i k => P i k + t * δ i k) N))))
        (∑ i, ∑ k, dir2Rev 0 src (qbar * -1 * c.den.g grp) i * N k * δ i k) 0 := by
      intro s hd hb
      rw [hd]
      simp only [hb]
      refine (((((hy.sub_const 0.5).const_mul s).const_mul (c.den.g grp)).const_mul (-1)).const_mul qbar).congr_deriv ?_
      rw [Fin.sum_univ_two]
      simp only [Matrix.cons_val_zero, Matrix.cons_val_one, zero_mul, Finset.sum_const_zero, zero_add, Finset.mul_sum]
      exact Finset.sum_congr rfl fun k _ => by ring
    by_cases h1 : src = "box1"
    · subst h1; exact lin (-6) rfl fun b => rfl
    by_cases h2 : src = "box2"
    · subst h2; exact lin 6 rfl fun b => rfl
    · refine zero (fun x y hd => ?_) ?_
      · unfold dir2 at hd
        split at hd <;> simp_all <;> (subst hd; rfl)
      · funext b; unfold dir2Rev; split <;> simp_all

/-- **C221** The coefficient has the two stator parameters (24 slots, stack length 0.345) exactly if some group has a stator winding
of either sense. -/
theorem C221_stator_parameters (o : Groups) (c0 : CurCoeff) (h0 : new3 o = some c0) (k : String) (hk : k = "n_slots" ∨ k = "stack_length")
    (hg : k ∉ groupNames o) :
    (k ∈ c0.den.ckeys ↔ ∃ e ∈ o, ∃ s ∈ e.2, s.1 = "cwStator" ∨ s.1 = "ccwStator") ∧
    c0.den.c k = if k = "n_slots" then 24 else 0.345 := by
  have e : c0.den = Density.new (groupNames o) (hasStator o) 24 0.345 := by
    unfold new3 at h0
    rcases h : addGroups (fun s => (currentDir 24 0.345 s).isSome) o [] with _ | m
    · rw [h] at h0; cases h0
    · rw [h] at h0; cases h0; rfl
  have hs : hasStator o = true ↔ ∃ e ∈ o, ∃ s ∈ e.2, s.1 = "cwStator" ∨ s.1 = "ccwStator" := by
    simp [hasStator]
  rw [e, ← hs]
  constructor
  · cases hb : hasStator o <;> rcases hk with rfl | rfl <;> simp [Density.new, hg]
  · simp [Density.new, hg]

/-- **C221, violation** A source that exists in three dimensions only (or a misspelt one) is not reported by the two-dimensional
coefficient: the elements, among those the load is integrated over, carry no current, whatever density is set. -/
theorem C221_ignored_false (x : V2) (J : ℝ) :
    let o : Groups := [("phaseA", [("cwStator", [3]), ("z", [4])])]
    ∃ c0 c, new2 o = some c0 ∧ c0.run [fun k => if k = "current_density:phaseA" then some (.val J) else none] = some c ∧
      c.eval2 4 x = -J ∧ c.eval2 3 x = 0 ∧ 3 ∈ loadAttrs o := by
  intro o
  have hm : ∃ m, addGroups (fun s => (dir2 s).isSome) o [] = some m := by
    rw [← Option.isSome_iff_exists, (addGroups_spec _ o []).1]
    simp [o, knownAttrs, dir2]
  obtain ⟨m, hm⟩ := hm
  have h0 : new2 o = some ⟨Density.new (groupNames o) false 0 0, m⟩ := by rw [new2, hm]; rfl
  have hs : ∀ i ∈ [fun k => if k = "current_density:phaseA" then some (Input.val J) else none], AllScalar i := by
    intro i hi k v
    simp only [List.mem_singleton] at hi
    subst hi; dsimp only; split <;> simp
  have hn : (groupNames o).Nodup := by simp [o, groupNames]
  obtain ⟨c, hr, h4, -⟩ := C221_plane o hn _ h0 _ hs 4 x
  obtain ⟨c', hr', -, h3⟩ := C221_plane o hn _ h0 _ hs 3 x
  have : c' = c := Option.some.inj (hr'.symm.trans hr)
  subst this
  refine ⟨_, _, h0, hr, ?_, h3 ?_, by simp [o, loadAttrs]⟩
  · rw [h4 "phaseA" "z" 1 ⟨[("cwStator", [3]), ("z", [4])], [4], by simp [o], by simp, by simp⟩ (Or.inl ⟨rfl, rfl⟩)]
    simp [lastValue]
  · rintro ⟨grp, src, ⟨srcs, as, h1, h2, h3⟩, hs⟩
    simp only [o, List.mem_singleton, Prod.mk.injEq] at h1
    obtain ⟨rfl, rfl⟩ := h1
    simp only [List.mem_cons, Prod.mk.injEq, List.not_mem_nil, or_false] at h2
    rcases h2 with ⟨rfl, rfl⟩ | ⟨rfl, rfl⟩
    · simp at hs
    · simp at h3

/-- Non-vacuity: two phases with four sources on six attributes are accepted in two and in three dimensions, and
with a history that sets one of the two densities twice the hypotheses of C221 hold. -/
example : ∃ (o : Groups) (h : List (Inputs ℝ)), (groupNames o).Nodup ∧ (new2 o).isSome ∧ (new3 o).isSome ∧
    (∀ i ∈ h, AllScalar i) ∧ Lists o "phaseA" "-z" 3 ∧ Lists o "phaseB" "box2" 5 ∧
    lastValue "current_density:phaseA" 1 h = 7 ∧ lastValue "current_density:phaseB" 1 h = 1 := by
  let o : Groups := [("phaseA", [("z", [1, 2]), ("-z", [3])]), ("phaseB", [("box1", [4]), ("box2", [5, 6])])]
  have ha := C221_accept o
  refine ⟨o, [fun k => if k = "current_density:phaseA" then some (.val 5) else none,
    fun k => if k = "current_density:phaseA" then some (.val 7) else none], by decide, ?_, ?_, ?_, ?_, ?_, ?_, ?_⟩
  · rw [ha.1]; simp [o, knownAttrs, dir2]
  · rw [ha.2]; simp [o, knownAttrs, currentDir]
  · intro i hi k v
    simp only [List.mem_cons, List.not_mem_nil, or_false] at hi
    rcases hi with rfl | rfl <;> by_cases hk : k = "current_density:phaseA" <;> simp [hk]
  · exact ⟨_, _, by simp [o]; rfl, by simp; rfl, by simp⟩
  · exact ⟨_, _, by simp [o]; rfl, by simp; rfl, by simp⟩
  · simp [lastValue]
  · simp [lastValue]

end Verif.CurrentField
