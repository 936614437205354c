import Verif.MatCoeffProps

/-!
Property C228: which reluctivity law every region of the mesh gets.
-/

namespace Verif.MatCoeffs

set_option linter.unusedSimpArgs false

/-- Specification: a value comes from the component's own block, or, if it is not there, from the block of the library. -/
def Comes (own : Obj) (lib : Option Obj) (key : String) (v : Val) : Prop :=
  own key = some v ∨ own key = none ∧ ∃ o, lib = some o ∧ o key = some v

/-- Specification: the data of a spline law: control points, knots and degree each on its own from the component or from the library; 3 where neither has a degree. -/
def SplineFrom (own : Obj) (lib : Option Obj) (d : SplineData) : Prop :=
  Comes own lib "cps" (.arr d.cps) ∧ Comes own lib "knots" (.arr d.knots) ∧
  ((∃ x, Comes own lib "degree" (.num x) ∧ d.degree = toInt x) ∨
    own "degree" = none ∧ (∃ o, lib = some o ∧ o "degree" = none) ∧ d.degree = 3)

/-- Specification: the law a component asks for. -/
def Law (muR : String → Option ℝ) (block : String → String → Option Obj) : Material → Built → Prop
  | .name s, b => b = .const (1 / ((muR s).getD 1 * (4e-7 * Real.pi)))
  | .obj s none, b => b = .const (1 / ((muR s).getD 1 * (4e-7 * Real.pi)))
  | .obj s (some own), b =>
    own "model" = some (.str "linear") ∧ b = .const (1 / ((muR s).getD 1 * (4e-7 * Real.pi))) ∨
    own "model" = some (.str "lognu") ∧ (∃ d, b = .lognu d ∧ SplineFrom own (block s "lognu") d) ∨
    own "model" = some (.str "bh") ∧ (∃ d, b = .bh d ∧ SplineFrom own (block s "bh") d)

theorem pickNu_ok (own : Obj) (lib : Option Obj) (key : String) (v : Val) : pickNu own lib key = .ok v ↔ Comes own lib key v := by
  unfold pickNu Comes
  cases own key with
  | some w => simp
  | none =>
    cases lib with
    | none => simp
    | some o => cases e : o key <;> simp [e]

theorem bind_ok {α β : Type} (r : Res α) (f : α → Res β) (b : β) : r.bind f = .ok b ↔ ∃ a, r = .ok a ∧ f a = .ok b := by
  cases r <;> simp [Res.bind]

theorem arr_ok (v : Val) (l : List ℝ) : v.arr? = .ok l ↔ v = .arr l := by cases v <;> simp [Val.arr?]
theorem num_ok (v : Val) (x : ℝ) : v.num? = .ok x ↔ v = .num x := by cases v <;> simp [Val.num?]
theorem str_ok (v : Val) (s : String) : v.str? = .ok s ↔ v = .str s := by cases v <;> simp [Val.str?]

theorem pickDegree_ok (own : Obj) (lib : Option Obj) (n : ℤ) : pickDegree own lib = .ok n ↔
    ((∃ x, Comes own lib "degree" (.num x) ∧ n = toInt x) ∨ own "degree" = none ∧ (∃ o, lib = some o ∧ o "degree" = none) ∧ n = 3) := by
  unfold pickDegree Comes
  cases own "degree" with
  | some v => simp [bind_ok, num_ok, @eq_comm ℤ n]
  | none =>
    cases lib with
    | none => simp
    | some o => cases e : o "degree" <;> simp [e, bind_ok, num_ok, @eq_comm ℤ n]

theorem getSpline_ok (own : Obj) (lib : Option Obj) (d : SplineData) : getSpline own lib = .ok d ↔ SplineFrom own lib d := by
  unfold getSpline SplineFrom
  simp only [bind_ok, arr_ok, pickNu_ok, pickDegree_ok]
  constructor
  · rintro ⟨_, h1, cps, rfl, _, h2, knots, rfl, n, h3, h⟩
    cases h
    exact ⟨h1, h2, h3⟩
  · rintro ⟨h1, h2, h3⟩
    exact ⟨_, h1, _, rfl, _, h2, _, rfl, _, h3, rfl⟩

/-- A component is accepted with a coefficient exactly when that is the law it asks for. -/
theorem constructNu_ok (muR : String → Option ℝ) (block : String → String → Option Obj) (c : Component) (b : Built) :
    constructNu muR block c = .ok b ↔ Law muR block c.material b := by
  unfold constructNu
  cases c.material with
  | name s => simp [Law, linearNu, mu0, eq_comm]
  | obj s own =>
    cases own with
    | none => simp [Law, linearNu, mu0, eq_comm]
    | some own =>
      simp only [Law]
      cases e : own "model" with
      | none => simp
      | some v =>
        simp only [bind_ok, str_ok, Option.some.injEq]
        constructor
        · rintro ⟨m, rfl, h⟩
          by_cases h1 : m = "linear"
          · subst h1
            simp only [if_true] at h
            cases h
            exact .inl ⟨rfl, rfl⟩
          · rw [if_neg h1] at h
            by_cases h2 : m = "lognu"
            · subst h2
              simp only [if_true, bind_ok] at h
              obtain ⟨d, hd, h⟩ := h
              cases h
              exact .inr (.inl ⟨rfl, d, rfl, (getSpline_ok _ _ _).1 hd⟩)
            · rw [if_neg h2] at h
              by_cases h3 : m = "bh"
              · subst h3
                simp only [if_true, bind_ok] at h
                obtain ⟨d, hd, h⟩ := h
                cases h
                exact .inr (.inr ⟨rfl, d, rfl, (getSpline_ok _ _ _).1 hd⟩)
              · rw [if_neg h3, ite_self] at h
                cases h
        · rintro (⟨rfl, rfl⟩ | ⟨rfl, d, rfl, hd⟩ | ⟨rfl, d, rfl, hd⟩)
          · exact ⟨"linear", rfl, by simp [linearNu, mu0]⟩
          · refine ⟨"lognu", rfl, ?_⟩
            rw [if_neg (by decide), if_pos rfl, (getSpline_ok _ _ _).2 hd]; rfl
          · refine ⟨"bh", rfl, ?_⟩
            rw [if_neg (by decide), if_neg (by decide), if_pos rfl, (getSpline_ok _ _ _).2 hd]; rfl

/-- **C228** A degree that is not an integer is cut off towards zero. -/
theorem C228_degree (x : ℝ) : (0 ≤ x → (toInt x : ℝ) ≤ x ∧ x < toInt x + 1) ∧ (x ≤ 0 → x ≤ toInt x ∧ (toInt x : ℝ) < x + 1) ∧
    (∀ z : ℤ, x = z → toInt x = z) := by
  refine ⟨fun h => ?_, fun h => ?_, ?_⟩
  · rw [toInt, if_pos h]; exact ⟨Int.floor_le x, Int.lt_floor_add_one x⟩
  · unfold toInt
    split_ifs with h0
    · obtain rfl : x = 0 := le_antisymm h h0
      simp
    · exact ⟨Int.le_ceil x, Int.ceil_lt_add_one x⟩
  · rintro z rfl
    unfold toInt; split_ifs <;> simp

/-- **C228** After a successful construction every attribute a component names has the law that component asks for, and every attribute with an entry is named by a component with that
law; elements of all other attributes have the reluctivity of the vacuum. -/
theorem C228_laws (muR : String → Option ℝ) (block : String → String → Option Obj) (law : Built → ℝ → ℝ) (cs : List Component) (m : Map)
    (h : buildPlain (constructNu muR block) cs [] = .ok m) :
    (∀ c ∈ cs, ∀ a ∈ c.targets, ∃ b, Law muR block c.material b ∧ m.lookup a = some b) ∧
    (∀ a b, m.lookup a = some b → ∃ c ∈ cs, a ∈ c.targets ∧ Law muR block c.material b) ∧
    (∀ a, (∀ c ∈ cs, a ∉ c.targets) → ∀ B, nuAt law m a B = 1 / (4e-7 * Real.pi)) := by
  obtain ⟨h1, h2, -⟩ := C144_plain_construction _ cs [] m h
  refine ⟨fun c hc a ha => ?_, fun a b hb => ?_, fun a ha B => ?_⟩
  · obtain ⟨b, hb, hl⟩ := h2 c hc a ha
    exact ⟨b, (constructNu_ok _ _ _ _).1 hb, hl⟩
  · rcases h1 a b hb with h | ⟨c, hc, ha, hf⟩
    · simp at h
    · exact ⟨c, hc, ha, (constructNu_ok _ _ _ _).1 hf⟩
  · have : m.lookup a = none := by
      cases e : m.lookup a with
      | none => rfl
      | some b =>
        rcases h1 a b e with h | ⟨c, hc, hac, -⟩
        · simp at h
        · exact absurd hac (ha c hc)
    simp [nuAt, this, nu0, mu0]

/-- **C228** A region of a material given by its name, without a reluctivity block, or with the model `linear`, has the constant reluctivity `1 / (mu_r mu_0)` for every flux density, with the
library's `mu_r`, 1 if it has none: it is positive for a positive `mu_r`, and at most that of the vacuum for `mu_r ≥ 1`. -/
theorem C228_linear (muR : String → Option ℝ) (block : String → String → Option Obj) (law : Built → ℝ → ℝ) (cs : List Component) (m : Map)
    (h : buildPlain (constructNu muR block) cs [] = .ok m) (c : Component) (hc : c ∈ cs) (s : String)
    (hm : c.material = .name s ∨ c.material = .obj s none ∨ ∃ own, c.material = .obj s (some own) ∧ own "model" = some (.str "linear"))
    (a : ℤ) (ha : a ∈ c.targets) (B : ℝ) :
    nuAt law m a B = 1 / ((muR s).getD 1 * (4e-7 * Real.pi)) ∧ (0 < (muR s).getD 1 → 0 < nuAt law m a B) ∧
    (1 ≤ (muR s).getD 1 → nuAt law m a B ≤ 1 / (4e-7 * Real.pi)) := by
  obtain ⟨b, hb, hl⟩ := (C228_laws muR block law cs m h).1 c hc a ha
  have e : b = .const (1 / ((muR s).getD 1 * (4e-7 * Real.pi))) := by
    rcases hm with hm | hm | ⟨own, hm, ho⟩ <;> rw [hm] at hb
    · exact hb
    · exact hb
    · rcases hb with ⟨-, hb⟩ | ⟨h2, -⟩ | ⟨h2, -⟩
      · exact hb
      · rw [ho] at h2; simp at h2
      · rw [ho] at h2; simp at h2
  subst e
  have hpi := Real.pi_pos
  have hv : nuAt law m a B = 1 / ((muR s).getD 1 * (4e-7 * Real.pi)) := by simp only [nuAt, hl]
  refine ⟨hv, fun h => ?_, fun h => ?_⟩
  · rw [hv]; positivity
  · rw [hv]
    apply one_div_le_one_div_of_le (by positivity)
    nlinarith [mul_pos (by norm_num : (0 : ℝ) < 4e-7) hpi]

/-- **C228** Options are never silently reinterpreted: if any component that names an attribute asks for a model other than `linear`, `lognu` and `bh`, for a model that is not a string, or for a
spline whose control points or knots are neither in the component nor in the library, no coefficient is made at all. -/
theorem C228_refused (muR : String → Option ℝ) (block : String → String → Option Obj) (cs : List Component) (c : Component) (hc : c ∈ cs)
    (ht : c.targets ≠ []) (s : String) (own : Obj) (hm : c.material = .obj s (some own))
    (hbad : (∀ M, own "model" = some (.str M) → M ≠ "linear" ∧ M ≠ "lognu" ∧ M ≠ "bh") ∨
      ∃ M, (M = "lognu" ∨ M = "bh") ∧ own "model" = some (.str M) ∧ ∃ key, (key = "cps" ∨ key = "knots") ∧ own key = none ∧
        ∀ o, block s M = some o → o key = none) (m : Map) :
    buildPlain (constructNu muR block) cs [] ≠ .ok m := by
  intro h
  obtain ⟨a, ha⟩ := List.exists_mem_of_ne_nil _ ht
  obtain ⟨b, hb, -⟩ := (C228_laws muR block (fun _ _ => 0) cs m h).1 c hc a ha
  rw [hm] at hb
  rcases hbad with h1 | ⟨M, hM, h1, key, hk, h2, h3⟩
  · rcases hb with ⟨h, -⟩ | ⟨h, -⟩ | ⟨h, -⟩
    · exact (h1 _ h).1 rfl
    · exact (h1 _ h).2.1 rfl
    · exact (h1 _ h).2.2 rfl
  · have no : ∀ v, ¬ Comes own (block s M) key v := by
      rintro v (h | ⟨-, o, ho, h⟩)
      · rw [h2] at h; cases h
      · rw [h3 o ho] at h; cases h
    rcases hb with ⟨h, -⟩ | ⟨h, d, -, hd⟩ | ⟨h, d, -, hd⟩
    · rw [h1] at h
      injection h with h; injection h with h
      rcases hM with rfl | rfl <;> simp at h
    · rw [h1] at h
      injection h with h; injection h with h
      subst h
      rcases hk with rfl | rfl
      · exact no _ hd.1
      · exact no _ hd.2.1
    · rw [h1] at h
      injection h with h; injection h with h
      subst h
      rcases hk with rfl | rfl
      · exact no _ hd.1
      · exact no _ hd.2.1

/-- **C228** (negation) The law for the TEAM 13 steel is in the code, but cannot be asked for: its options are always refused. -/
theorem C228_team13_false (muR : String → Option ℝ) (block : String → String → Option Obj) (attr : ℤ) (attrs : List ℤ) (s : String) (own : Obj)
    (h : own "model" = some (.str "team13")) : constructNu muR block ⟨attr, attrs, .obj s (some own)⟩ = .miso := by
  simp [constructNu, h, Val.str?, Res.bind]

/-- **C228** (negation) A component that brings its own control points and knots for a material without such a block in the library is not given the default degree 3: reading the
default fails. -/
theorem C228_own_spline_false (muR : String → Option ℝ) (block : String → String → Option Obj) (attr : ℤ) (attrs : List ℤ) (s : String) (own : Obj) (cps knots : List ℝ)
    (hm : own "model" = some (.str "bh")) (h1 : own "cps" = some (.arr cps)) (h2 : own "knots" = some (.arr knots)) (h3 : own "degree" = none)
    (hb : block s "bh" = none) : constructNu muR block ⟨attr, attrs, .obj s (some own)⟩ = .abort := by
  simp [constructNu, hm, Val.str?, Res.bind, getSpline, pickNu, h1, h2, Val.arr?, pickDegree, h3, hb]

/-! Non-vacuity: air by name, linear iron, and a steel whose knots come from the component and the rest from the library. -/

/-- Witness: the options of the steel. -/
def exOwn : Obj := fun k => if k = "model" then some (.str "bh") else if k = "knots" then some (.arr [0, 0, 1, 1]) else none

/-- Witness: the library. -/
def exBlock : String → String → Option Obj := fun s M =>
  if s = "steel" ∧ M = "bh" then some fun k => if k = "cps" then some (.arr [0, 5]) else if k = "degree" then some (.num 1) else none else none

example : ∃ m, buildPlain (constructNu (fun s => if s = "iron" then some 500 else none) exBlock)
    [⟨-1, [1, 2], .name "air"⟩, ⟨3, [], .obj "iron" none⟩, ⟨-1, [4], .obj "steel" (some exOwn)⟩] [] = .ok m ∧
    m.lookup 4 = some (.bh ⟨[0, 5], [0, 0, 1, 1], 1⟩) ∧ m.lookup 3 = some (.const (1 / (500 * (4e-7 * Real.pi)))) ∧ m.lookup 5 = none := by
  refine ⟨[(4, .bh ⟨[0, 5], [0, 0, 1, 1], 1⟩), (3, .const (1 / (500 * mu0))), (2, .const (1 / (1 * mu0))), (1, .const (1 / (1 * mu0)))], ?_, rfl, rfl, rfl⟩
  have h : toInt 1 = 1 := by simp [toInt]
  simp [buildPlain, addAttrs, addCoeff, Res.bind, constructNu, linearNu, List.lookup, exOwn, exBlock, Val.str?, getSpline, pickNu, pickDegree, Val.arr?, Val.num?, h]

end Verif.MatCoeffs
