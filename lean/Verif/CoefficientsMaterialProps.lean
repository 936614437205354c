import Mathlib.Tactic.NormNum
import Verif.CoefficientsProps

/-!
# Building coefficients from material options: C63
-/

set_option linter.dupNamespace false
set_option linter.unusedSectionVars false

namespace Verif.Coefficients

section Material
variable {K IP X D : Type} [Field K] [LinearOrder K] [IsStrictOrderedRing K]

theorem Res.bind_ok {α β : Type} {r : Res α} {f : α → Res β} {b : β} (h : r.bind f = .ok b) :
    ∃ a, r = .ok a ∧ f a = .ok b := by
  cases r with
  | ok a => exact ⟨a, rfl, h⟩
  | _ => cases h

theorem addAll_spec (co : Coeff K IP X D) (as : List ℤ) (m m' : CMap K IP X D)
    (h : addAll m co as = .ok m') :
    as.Nodup ∧ (∀ a ∈ as, m.find a = none ∧ m'.find a = some co) ∧
      (∀ a, a ∉ as → m'.find a = m.find a) := by
  induction as generalizing m with
  | nil =>
    simp only [addAll, Res.ok.injEq] at h
    subst h
    simp
  | cons b bs ih =>
    simp only [addAll, CMap.add] at h
    rcases hf : m.find b with _ | c0 <;> rw [hf] at h
    · obtain ⟨h1, h2, h3⟩ := ih _ h
      have hb : b ∉ bs := by
        intro hb
        have := (h2 b hb).1
        rw [find_cons, if_pos rfl] at this
        cases this
      refine ⟨List.nodup_cons.mpr ⟨hb, h1⟩, ?_, ?_⟩
      · intro a ha
        rcases List.mem_cons.mp ha with rfl | ha'
        · exact ⟨hf, by rw [h3 a hb, find_cons, if_pos rfl]⟩
        · have hab : a ≠ b := fun e => hb (e ▸ ha')
          have := h2 a ha'
          rw [find_cons, if_neg hab] at this
          exact this
      · intro a ha
        rw [List.mem_cons, not_or] at ha
        rw [h3 a ha.2, find_cons, if_neg ha.1]
    · cases h

theorem constructLoop_spec (name : String) (mats : Materials K) (dflt : K) (comps : List Component)
    (m m' : CMap K IP X D) (h : constructLoop name mats dflt comps m = .ok m') (a : ℤ) :
    (∀ c, m.find a = some c → m'.find a = some c) ∧
    (∀ comp ∈ comps, a ∈ comp.targets → ∀ co, materialCoeff name mats comp dflt = .ok (some co) →
      m.find a = none ∧ m'.find a = some co) ∧
    ((∀ comp ∈ comps, a ∈ comp.targets →
        materialCoeff (IP := IP) (X := X) (D := D) name mats comp dflt = .ok none) →
      m'.find a = m.find a) := by
  induction comps generalizing m with
  | nil =>
    simp only [constructLoop, Res.ok.injEq] at h
    subst h
    simp
  | cons c cs ih =>
    simp only [constructLoop] at h
    obtain ⟨oc, ho, h⟩ := Res.bind_ok h
    cases oc with
    | none =>
      obtain ⟨i1, i2, i3⟩ := ih _ h
      refine ⟨i1, ?_, ?_⟩
      · intro comp hc hat co hco
        rcases List.mem_cons.mp hc with rfl | hc'
        · rw [ho] at hco; cases hco
        · exact i2 comp hc' hat co hco
      · intro hall
        exact i3 fun comp hc => hall comp (List.mem_cons_of_mem _ hc)
    | some co0 =>
      obtain ⟨m1, hm1, h⟩ := Res.bind_ok h
      obtain ⟨i1, i2, i3⟩ := ih _ h
      obtain ⟨_, a2, a3⟩ := addAll_spec _ _ _ _ hm1
      refine ⟨?_, ?_, ?_⟩
      · intro c' hc'
        by_cases hin : a ∈ c.targets
        · rw [(a2 a hin).1] at hc'; cases hc'
        · exact i1 c' (by rw [a3 a hin]; exact hc')
      · intro comp hc hat co hco
        rcases List.mem_cons.mp hc with rfl | hc'
        · rw [ho] at hco
          simp only [Res.ok.injEq, Option.some.injEq] at hco
          subst hco
          exact ⟨(a2 a hat).1, i1 _ (a2 a hat).2⟩
        · obtain ⟨j1, j2⟩ := i2 comp hc' hat co hco
          refine ⟨?_, j2⟩
          by_cases hin : a ∈ c.targets
          · rw [(a2 a hin).2] at j1; cases j1
          · rw [← a3 a hin]; exact j1
      · intro hall
        have hnot : a ∉ c.targets := by
          intro hin
          have := hall c (List.mem_cons_self ..) hin
          rw [ho] at this
          cases this
        rw [i3 fun comp hc => hall comp (List.mem_cons_of_mem _ hc), a3 a hnot]

theorem eval_of_find (lam : K) (l : Loc IP) (x : X) (m : CMap K IP X D) (c : Coeff K IP X D)
    (h : m.find l.attr = some c) : (Coeff.mesh m .none).eval lam l x = c.eval lam l x := by
  simp only [Coeff.eval, CMap.eval_eq, h]

theorem eval_of_find_none (lam : K) (l : Loc IP) (x : X) (m : CMap K IP X D)
    (h : m.find l.attr = none) : (Coeff.mesh m .none).eval lam l x = 0 := by
  simp only [Coeff.eval, CMap.eval_eq, h, COpt.eval]

/-- C63 (partial: the default is not honoured, see below): when the coefficient of property
`name` is built, every attribute of a component whose material has a numeric value evaluates to
that value; for a composite material it evaluates to the requested mixture of the two
constituents' values at fill factor 1/2. -/
theorem C63_material_values_partial (name : String) (comps : List Component) (mats : Materials K)
    (dflt : K) (M : Coeff K IP X D) (h : constructMaterial name comps mats dflt = .ok M)
    (comp : Component) (hc : comp ∈ comps) (props : String → Option (Prop' K))
    (hm : mats comp.material = some props) (lam : K) (l : Loc IP) (x : X)
    (hl : l.attr ∈ (if comp.attr ≠ -1 then [comp.attr] else comp.attrs)) :
    (∀ v, props name = some (.num v) → M.eval lam l x = v) ∧
    (∀ m1 m2 p1 p2 v1 v2 ff, props name = some (.obj (some [m1, m2]) ff "Hashin-Shtrikman") →
      mats m1 = some p1 → mats m2 = some p2 → p1 name = some (.num v1) →
      p2 name = some (.num v2) → M.eval lam l x = (mkHS v1 v2 ff : Coeff K IP X D).eval lam l x) ∧
    (∀ m1 m2 p1 p2 v1 v2 ff, props name = some (.obj (some [m1, m2]) ff "average") →
      mats m1 = some p1 → mats m2 = some p2 → p1 name = some (.num v1) →
      p2 name = some (.num v2) → M.eval lam l x = (max v1 v2 + min v1 v2) / 2) := by
  obtain ⟨m, hloop, hM⟩ := Res.bind_ok h
  simp only [Res.ok.injEq] at hM
  subst hM
  obtain ⟨_, s2, _⟩ := constructLoop_spec name mats dflt comps .nil m hloop l.attr
  have s2' := s2 comp hc hl
  have hne1 : ¬ ("average" = "Hashin-Shtrikman") := by decide
  have hne2 : ¬ ("average" = "dHashin-Shtrikman") := by decide
  refine ⟨?_, ?_, ?_⟩
  · intro v hv
    rw [eval_of_find lam l x m _ (s2' (.plain (fun _ _ => v) (fun _ _ _ G => some G))
      (by simp only [materialCoeff, hm, hv])).2]
    rfl
  · intro m1 m2 p1 p2 v1 v2 ff hv h1 h2 h3 h4
    rw [eval_of_find lam l x m _ (s2' (mkHS v1 v2 ff) (by
      simp only [materialCoeff, hm, hv, readVals, h1, h2, h3, h4, Res.bind, if_true])).2]
  · intro m1 m2 p1 p2 v1 v2 ff hv h1 h2 h3 h4
    rw [eval_of_find lam l x m _ (s2' (mkAvg v1 v2 ff) (by
      simp only [materialCoeff, hm, hv, readVals, h1, h2, h3, h4, Res.bind, if_true, hne1, hne2,
        if_false])).2]
    simp only [mkAvg, Coeff.eval, avgEval]
    rw [ite_max, ite_min]
    ring

/-- C63: an attribute whose components' materials lack the property (or for which there is no
component at all) evaluates to 0. -/
theorem C63_missing_property_is_zero (name : String) (comps : List Component) (mats : Materials K)
    (dflt : K) (M : Coeff K IP X D) (h : constructMaterial name comps mats dflt = .ok M)
    (lam : K) (l : Loc IP) (x : X)
    (hmiss : ∀ comp ∈ comps, l.attr ∈ (if comp.attr ≠ -1 then [comp.attr] else comp.attrs) →
      ∃ props, mats comp.material = some props ∧ props name = none) :
    M.eval lam l x = 0 := by
  obtain ⟨m, hloop, hM⟩ := Res.bind_ok h
  simp only [Res.ok.injEq] at hM
  subst hM
  obtain ⟨_, _, s3⟩ := constructLoop_spec name mats dflt comps .nil m hloop l.attr
  refine eval_of_find_none lam l x m ?_
  rw [s3]
  · rfl
  · intro comp hc hat
    obtain ⟨props, h1, h2⟩ := hmiss comp hc hat
    simp only [materialCoeff, h1, h2]

/-- C63: the caller's default value has no influence at all. -/
theorem C63_default_value_ignored (name : String) (comps : List Component) (mats : Materials K)
    (d1 d2 : K) :
    (constructMaterial name comps mats d1 : Res (Coeff K IP X D)) =
      constructMaterial name comps mats d2 := by
  have : ∀ (cs : List Component) (m : CMap K IP X D),
      constructLoop name mats d1 cs m = constructLoop name mats d2 cs m := by
    intro cs
    induction cs with
    | nil => intro m; rfl
    | cons c cs ih =>
      intro m
      simp only [constructLoop]
      have e : (materialCoeff name mats c d1 : Res (Option (Coeff K IP X D))) =
        materialCoeff name mats c d2 := rfl
      rw [e]
      congr 1
      funext oc
      cases oc with
      | none => exact ih m
      | some co =>
        dsimp only
        congr 1
        funext m'
        exact ih m'
  simp only [constructMaterial, this]

/-- C63 is false as stated: a material without the property does not get the default. -/
theorem C63_false_default_value_used :
    ¬ ∀ (name : String) (comps : List Component) (mats : Materials ℚ) (dflt : ℚ)
      (M : Coeff ℚ Unit Unit Unit), constructMaterial name comps mats dflt = .ok M →
      ∀ comp ∈ comps, ∀ props, mats comp.material = some props → props name = none →
        M.eval 0 ⟨comp.attr, ()⟩ () = dflt := by
  intro h
  have := h "rho" [⟨1, [], "air"⟩] (fun _ => some fun _ => none) 5 (.mesh .nil .none) rfl
    ⟨1, [], "air"⟩ (by simp) (fun _ => none) rfl rfl
  norm_num [Coeff.eval, CMap.eval, COpt.eval] at this

/-- C63: a composite whose `materials` entry is not a list is refused with an exception, and an
unknown `weight` silently registers nothing, so the material evaluates to 0. -/
theorem C63_composite_errors (name : String) (comp : Component) (comps : List Component)
    (mats : Materials K) (dflt : K) (props : String → Option (Prop' K))
    (hm : mats comp.material = some props) :
    (∀ ff w, props name = some (.obj none ff w) →
      (constructMaterial name (comp :: comps) mats dflt : Res (Coeff K IP X D)) = .misoException) ∧
    (∀ names ff w vals, props name = some (.obj (some names) ff w) →
      readVals mats name names = .ok vals →
      w ≠ "Hashin-Shtrikman" → w ≠ "dHashin-Shtrikman" → w ≠ "average" → w ≠ "daverage" →
      (constructMaterial name (comp :: comps) mats dflt : Res (Coeff K IP X D)) =
        constructMaterial name comps mats dflt) := by
  refine ⟨?_, ?_⟩
  · intro ff w hp
    simp only [constructMaterial, constructLoop, materialCoeff, hm, hp, Res.bind]
  · intro names ff w vals hp hv h1 h2 h3 h4
    simp only [constructMaterial, constructLoop, materialCoeff, hm, hp, Res.bind, hv, if_neg h1,
      if_neg h2, if_neg h3, if_neg h4]

/-- C63: two components that register the property for a common attribute end the program. -/
theorem C63_overlapping_components_abort (name : String) (pre mid : List Component)
    (c1 c2 : Component) (post : List Component) (mats : Materials K) (dflt : K) (a : ℤ)
    (ha1 : a ∈ c1.targets) (ha2 : a ∈ c2.targets)
    (props1 props2 : String → Option (Prop' K)) (v1 v2 : K)
    (h1 : mats c1.material = some props1) (hp1 : props1 name = some (.num v1))
    (h2 : mats c2.material = some props2) (hp2 : props2 name = some (.num v2))
    (M : Coeff K IP X D) :
    constructMaterial name (pre ++ c1 :: mid ++ c2 :: post) mats dflt ≠ .ok M := by
  intro h
  obtain ⟨m, hloop, _⟩ := Res.bind_ok h
  have key : ∀ (pre : List Component) (m0 : CMap K IP X D),
      constructLoop name mats dflt (pre ++ c1 :: (mid ++ c2 :: post)) m0 ≠ .ok m := by
    intro pre
    induction pre with
    | nil =>
      intro m0 hh
      simp only [List.nil_append, constructLoop] at hh
      obtain ⟨oc, ho, hh⟩ := Res.bind_ok hh
      simp only [materialCoeff, h1, hp1, Res.ok.injEq] at ho
      subst ho
      obtain ⟨m1, hm1, hh⟩ := Res.bind_ok hh
      obtain ⟨_, a2, _⟩ := addAll_spec _ _ _ _ hm1
      obtain ⟨_, s2, _⟩ := constructLoop_spec name mats dflt _ m1 m hh a
      have := (s2 c2 (by simp) ha2 _ (by simp only [materialCoeff, h2, hp2]; rfl)).1
      rw [(a2 a ha1).2] at this
      cases this
    | cons p ps ih =>
      intro m0 hh
      simp only [List.cons_append, constructLoop] at hh
      obtain ⟨oc, ho, hh⟩ := Res.bind_ok hh
      cases oc with
      | none => exact ih m0 hh
      | some co =>
        obtain ⟨m1, hm1, hh⟩ := Res.bind_ok hh
        exact ih m1 hh
  rw [List.append_assoc, List.cons_append] at hloop
  exact key pre .nil hloop

/-- Non-vacuity: iron with a number, windings as a copper/epoxy composite over two attributes and
air without the property. -/
def demoMats : Materials ℚ := fun m =>
  if m = "iron" then some fun p => if p = "kappa" then some (.num 80) else none
  else if m = "copper" then some fun p => if p = "kappa" then some (.num 400) else none
  else if m = "epoxy" then some fun p => if p = "kappa" then some (.num 0) else none
  else if m = "winding" then some fun p =>
    if p = "kappa" then some (.obj (some ["epoxy", "copper"]) "ff" "average") else none
  else if m = "air" then some fun _ => none
  else none

example : ∃ M : Coeff ℚ Unit Unit Unit,
    constructMaterial "kappa" [⟨1, [], "iron"⟩, ⟨-1, [2, 3], "winding"⟩, ⟨4, [], "air"⟩] demoMats 9
      = .ok M ∧ M.eval 0 ⟨1, ()⟩ () = 80 ∧ M.eval 0 ⟨3, ()⟩ () = 200 ∧ M.eval 0 ⟨4, ()⟩ () = 0 := by
  refine ⟨.mesh (.cons 3 (mkAvg 0 400 "ff") (.cons 2 (mkAvg 0 400 "ff")
    (.cons 1 (.plain (fun _ _ => 80) (fun _ _ _ G => some G)) .nil))) .none, ?_, ?_⟩
  · rfl
  · norm_num [Coeff.eval, CMap.eval, COpt.eval, mkAvg, avgEval]

theorem twoStateLoop_spec (name : String) (mats : Materials K) (dflt : K) (comps : List Component)
    (m m' : CMap K IP X D) (h : twoStateLoop name mats dflt comps m = .ok m') (a : ℤ) :
    (∀ c, m.find a = some c → m'.find a = some c) ∧
    (∀ comp ∈ comps, a ∈ comp.targets → ∃ v, twoStateVal name mats comp dflt = .ok v ∧
      m'.find a = some (.plain (fun _ _ => v) (fun _ _ _ G => some G))) := by
  induction comps generalizing m with
  | nil =>
    simp only [twoStateLoop, Res.ok.injEq] at h
    subst h
    simp
  | cons c cs ih =>
    simp only [twoStateLoop] at h
    obtain ⟨v, hv, h⟩ := Res.bind_ok h
    obtain ⟨m1, hm1, h⟩ := Res.bind_ok h
    obtain ⟨i1, i2⟩ := ih _ h
    obtain ⟨_, a2, a3⟩ := addAll_spec _ _ _ _ hm1
    refine ⟨?_, ?_⟩
    · intro c' hc'
      by_cases hin : a ∈ c.targets
      · rw [(a2 a hin).1] at hc'; cases hc'
      · exact i1 c' (by rw [a3 a hin]; exact hc')
    · intro comp hc hat
      rcases List.mem_cons.mp hc with rfl | hc'
      · exact ⟨v, hv, i1 _ (a2 a hat).2⟩
      · exact i2 comp hc' hat

/-- C63: the two- and three-state constructors do honour the default: an attribute evaluates to
the material's value, or to the default when the material lacks the property. -/
theorem C63_two_state_default_used (name : String) (comps : List Component) (mats : Materials K)
    (dflt : K) (M : Coeff K IP X D) (h : constructMaterialTwo name comps mats dflt = .ok M)
    (comp : Component) (hc : comp ∈ comps) (props : String → Option (Prop' K))
    (hm : mats comp.material = some props) (lam : K) (l : Loc IP) (x : X)
    (hl : l.attr ∈ (if comp.attr ≠ -1 then [comp.attr] else comp.attrs)) :
    (∀ v, props name = some (.num v) → M.eval lam l x = v) ∧
    (props name = none → M.eval lam l x = dflt) := by
  obtain ⟨m, hloop, hM⟩ := Res.bind_ok h
  simp only [Res.ok.injEq] at hM
  subst hM
  obtain ⟨v, hv, hf⟩ := (twoStateLoop_spec name mats dflt comps .nil m hloop l.attr).2 comp hc hl
  rw [eval_of_find lam l x m _ hf]
  refine ⟨?_, ?_⟩
  · intro v' hv'
    simp only [twoStateVal, hm, hv', Res.ok.injEq] at hv
    subst hv; rfl
  · intro hn
    simp only [twoStateVal, hm, hn, Res.ok.injEq] at hv
    subst hv; rfl

example : ∃ M : Coeff ℚ Unit Unit Unit,
    constructMaterialTwo "kappa" [⟨1, [], "iron"⟩, ⟨-1, [4, 5], "air"⟩] demoMats 9 = .ok M ∧
      M.eval 0 ⟨1, ()⟩ () = 80 ∧ M.eval 0 ⟨5, ()⟩ () = 9 := by
  refine ⟨_, rfl, ?_⟩
  norm_num [Coeff.eval, CMap.eval, COpt.eval]

end Material
end Verif.Coefficients
