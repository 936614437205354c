import Mathlib.Analysis.Calculus.Deriv.Basic
import Mathlib.Analysis.Calculus.Deriv.Add
import Mathlib.Analysis.Calculus.Deriv.Mul
import Mathlib.Analysis.Calculus.Deriv.Inv
import Mathlib.Analysis.Calculus.Deriv.Pow
import Mathlib.Algebra.Order.Field.Basic
import Mathlib.Tactic.Linarith
import Mathlib.Tactic.Ring
import Mathlib.Tactic.FieldSimp
import Mathlib.Tactic.NormNum
import Mathlib.Tactic.Positivity
import Verif.Coefficients

/-!
# Properties of the coefficients: C60–C64, C80
-/

set_option linter.dupNamespace false
set_option linter.unusedSectionVars false

namespace Verif.Coefficients

open Verif.Inputs (Inputs Input Out setValueFromInputs setValueFromInput)

variable {K IP X D : Type}

/-! ## C60 Hashin–Shtrikman -/

section HS
variable [Field K] [LinearOrder K] [IsStrictOrderedRing K]

theorem ite_max (a b : K) : (if a > b then a else b) = max a b := by
  rcases lt_or_ge b a with h | h
  · rw [if_pos h, max_eq_left h.le]
  · rw [if_neg (not_lt.mpr h), max_eq_right h]

theorem ite_min (a b : K) : (if a > b then b else a) = min a b := by
  rcases lt_or_ge b a with h | h
  · rw [if_pos h, min_eq_right h.le]
  · rw [if_neg (not_lt.mpr h), min_eq_left h]

theorem hs_den_pos {a b w : K} (ha : 0 < a) (hb : 0 < b) (h0 : 0 ≤ w) (h1 : w ≤ 1) :
    0 < (1 - w) * a + (1 + w) * b := by
  have h2 : 0 ≤ (1 - w) * a := mul_nonneg (by linarith) ha.le
  have h3 : 0 < (1 + w) * b := mul_pos (by linarith) hb
  linarith

/-- The weight of the four weighted coefficients after `setInputs`: the input named `weighted_by`. -/
theorem setInputs_hs (inp : Inputs K) (v1 v2 w w' : K) (k : String) (h : inp k = some (.val w)) :
    (Coeff.hs v1 v2 w' k : Coeff K IP X D).setInputs inp = .ok (.hs v1 v2 w k) := by
  simp [Coeff.setInputs, setValueFromInputs, h, setValueFromInput]

theorem setInputs_avg (inp : Inputs K) (v1 v2 w w' : K) (k : String) (h : inp k = some (.val w)) :
    (Coeff.avg v1 v2 w' k : Coeff K IP X D).setInputs inp = .ok (.avg v1 v2 w k) := by
  simp [Coeff.setInputs, setValueFromInputs, h, setValueFromInput]

theorem setInputs_dhs (inp : Inputs K) (v1 v2 w w' : K) (k : String) (h : inp k = some (.val w)) :
    (Coeff.dhs v1 v2 w' k : Coeff K IP X D).setInputs inp = .ok (.dhs v1 v2 w k) := by
  simp [Coeff.setInputs, setValueFromInputs, h, setValueFromInput]

theorem setInputs_davg (inp : Inputs K) (v1 v2 w w' : K) (k : String) (h : inp k = some (.val w)) :
    (Coeff.davg v1 v2 w' k : Coeff K IP X D).setInputs inp = .ok (.davg v1 v2 w k) := by
  simp [Coeff.setInputs, setValueFromInputs, h, setValueFromInput]

/-- C60: for positive constituents (given in either order) and a fill factor `w ∈ [0,1]` the
Hashin–Shtrikman coefficient lies between the constituents; at `w = 0` it is the smaller, at
`w = 1` the larger one. -/
theorem C60_hashin_shtrikman_bounds (v1 v2 w : K) (k : String) (inp : Inputs K) (lam s : K)
    (l : Loc IP) (x : X) (h1 : 0 < v1) (h2 : 0 < v2) (hw0 : 0 ≤ w) (hw1 : w ≤ 1)
    (hin : inp k = some (.val w)) :
    ∃ c : Coeff K IP X D, (mkHS v1 v2 k).setInputs inp = .ok c ∧
      min v1 v2 ≤ c.eval lam l x ∧ c.eval lam l x ≤ max v1 v2 ∧
      (w = 0 → c.eval lam l x = min v1 v2) ∧ (w = 1 → c.eval lam l x = max v1 v2) ∧
      c.evalS lam l x s = c.eval lam l x := by
  refine ⟨.hs (max v1 v2) (min v1 v2) w k, ?_, ?_⟩
  · rw [mkHS, ite_max, ite_min]; exact setInputs_hs inp _ _ _ _ _ hin
  · have ha : 0 < max v1 v2 := lt_max_of_lt_left h1
    have hb : 0 < min v1 v2 := lt_min h1 h2
    have hab : min v1 v2 ≤ max v1 v2 := min_le_max
    generalize max v1 v2 = a at *
    generalize min v1 v2 = b at *
    have hd := hs_den_pos ha hb hw0 hw1
    simp only [Coeff.eval, Coeff.evalS, hsEval]
    refine ⟨?_, ?_, ?_, ?_, trivial⟩
    · rw [le_div_iff₀ hd]
      have : 0 ≤ b * (2 * w * (a - b)) := by
        apply mul_nonneg hb.le; apply mul_nonneg (by linarith) (by linarith)
      nlinarith
    · rw [div_le_iff₀ hd]
      have : 0 ≤ (1 - w) * ((a - b) * (a + b)) :=
        mul_nonneg (by linarith) (mul_nonneg (by linarith) (by linarith))
      nlinarith
    · rintro rfl
      have : a + b ≠ 0 := by positivity
      field_simp
      ring
    · rintro rfl
      have : b ≠ 0 := hb.ne'
      rw [div_eq_iff (by simpa using hd.ne')]
      ring

/-- C60: a larger fill factor never lowers the conductivity, and raises it if the constituents
differ. -/
theorem C60_hashin_shtrikman_monotone (v1 v2 w w' : K) (h1 : 0 < v1) (h2 : 0 < v2)
    (hw0 : 0 ≤ w) (hww : w < w') (hw1 : w' ≤ 1) (hne : v1 ≠ v2) (k : String)
    (inp inp' : Inputs K) (lam : K) (l : Loc IP) (x : X)
    (hin : inp k = some (.val w)) (hin' : inp' k = some (.val w')) :
    ∃ c c' : Coeff K IP X D, (mkHS v1 v2 k).setInputs inp = .ok c ∧
      (mkHS v1 v2 k).setInputs inp' = .ok c' ∧ c.eval lam l x < c'.eval lam l x := by
  refine ⟨.hs (max v1 v2) (min v1 v2) w k, .hs (max v1 v2) (min v1 v2) w' k, ?_, ?_, ?_⟩
  · rw [mkHS, ite_max, ite_min]; exact setInputs_hs inp _ _ _ _ _ hin
  · rw [mkHS, ite_max, ite_min]; exact setInputs_hs inp' _ _ _ _ _ hin'
  · have ha : 0 < max v1 v2 := lt_max_of_lt_left h1
    have hb : 0 < min v1 v2 := lt_min h1 h2
    have hab : min v1 v2 < max v1 v2 := min_lt_max.mpr hne
    generalize max v1 v2 = a at *
    generalize min v1 v2 = b at *
    have hd := hs_den_pos ha hb hw0 (hww.le.trans hw1)
    have hd' := hs_den_pos ha hb (hw0.trans hww.le) hw1
    simp only [Coeff.eval, hsEval]
    rw [div_lt_div_iff₀ hd hd']
    have : 0 < b * ((w' - w) * ((a - b) * (a + b))) :=
      mul_pos hb (mul_pos (by linarith) (mul_pos (by linarith) (by linarith)))
    nlinarith

/-- C60: the order in which the two constituents are listed is immaterial — also for the weighted
average and the two derivative coefficients. -/
theorem C60_constituent_order_irrelevant (v1 v2 : K) (k : String) :
    (mkHS v1 v2 k : Coeff K IP X D) = mkHS v2 v1 k ∧
    (mkDHS v1 v2 k : Coeff K IP X D) = mkDHS v2 v1 k ∧
    (mkAvg v1 v2 k : Coeff K IP X D) = mkAvg v2 v1 k ∧
    (mkDAvg v1 v2 k : Coeff K IP X D) = mkDAvg v2 v1 k := by
  simp only [mkHS, mkDHS, mkAvg, mkDAvg, ite_max, ite_min, max_comm v1 v2, min_comm v1 v2,
    and_self]

/-- C60: before any input is set the fill factor is one half; the input must be a number. -/
theorem C60_fill_factor_default (v1 v2 : K) (k : String) (inp : Inputs K) :
    (inp k = none → (mkHS v1 v2 k : Coeff K IP X D).setInputs inp = .ok (mkHS v1 v2 k)) ∧
    (∀ v, inp k = some (.vec v) → (mkHS v1 v2 k : Coeff K IP X D).setInputs inp = .badVariant) ∧
    (∀ (lam : K) (l : Loc IP) (x : X), 0 < v1 → 0 < v2 →
      (mkHS v1 v2 k : Coeff K IP X D).eval lam l x =
        min v1 v2 * (3 * max v1 v2 + min v1 v2) / (max v1 v2 + 3 * min v1 v2)) := by
  refine ⟨fun h => ?_, fun v h => ?_, fun lam l x h1 h2 => ?_⟩
  · simp [mkHS, Coeff.setInputs, setValueFromInputs, h]
  · simp [mkHS, Coeff.setInputs, setValueFromInputs, h, setValueFromInput]
  · have ha : 0 < max v1 v2 := lt_max_of_lt_left h1
    have hb : 0 < min v1 v2 := lt_min h1 h2
    simp only [mkHS, ite_max, ite_min, Coeff.eval, hsEval]
    generalize max v1 v2 = a at *
    generalize min v1 v2 = b at *
    have hd : (1 - 1 / 2) * a + (1 + 1 / 2) * b ≠ 0 := by
      have := hs_den_pos (w := (1 / 2 : K)) ha hb (by norm_num) (by norm_num)
      exact this.ne'
    have hd2 : a + 3 * b ≠ 0 := by positivity
    rw [div_eq_div_iff hd hd2]
    ring

/-- Non-vacuity: copper 400 and epoxy 1 with fill factor 1/4. -/
example : ∃ c : Coeff ℚ Unit Unit Unit,
    (mkHS 1 400 "ff").setInputs (fun k => if k = "ff" then some (.val (1/4)) else none) = .ok c ∧
      c.eval 0 ⟨1, ()⟩ () = 2003 / 1205 :=
  ⟨.hs 400 1 (1/4) "ff", by simp [mkHS, Coeff.setInputs, setValueFromInputs, setValueFromInput],
    by norm_num [Coeff.eval, hsEval]⟩

/-- C61: for any constituents (either order, any sign) and fill factor `w ∈ [0,1]` the weighted
average lies between them: it is `w·max + (1-w)·min`. -/
theorem C61_weighted_average_bounds (v1 v2 w : K) (k : String) (inp : Inputs K) (lam s : K)
    (l : Loc IP) (x : X) (hw0 : 0 ≤ w) (hw1 : w ≤ 1) (hin : inp k = some (.val w)) :
    ∃ c : Coeff K IP X D, (mkAvg v1 v2 k).setInputs inp = .ok c ∧
      min v1 v2 ≤ c.eval lam l x ∧ c.eval lam l x ≤ max v1 v2 ∧
      c.eval lam l x = w * max v1 v2 + (1 - w) * min v1 v2 ∧
      c.evalS lam l x s = c.eval lam l x := by
  refine ⟨.avg (max v1 v2) (min v1 v2) w k, ?_, ?_⟩
  · rw [mkAvg, ite_max, ite_min]; exact setInputs_avg inp _ _ _ _ _ hin
  · have hab : min v1 v2 ≤ max v1 v2 := min_le_max
    generalize max v1 v2 = a at *
    generalize min v1 v2 = b at *
    simp only [Coeff.eval, Coeff.evalS, avgEval]
    refine ⟨?_, ?_, trivial, trivial⟩ <;> nlinarith

/-- C61: the fill factor always belongs to the *larger* constituent: a user who lists `[light,
heavy]` with `fill_factor = 1` gets `heavy`, so "the weight of the first listed material" is not
what the coefficient computes. -/
theorem C61_false_weight_of_first_listed :
    ¬ ∀ (v1 v2 w : ℚ) (inp : Inputs ℚ), inp "ff" = some (.val w) → 0 ≤ w → w ≤ 1 →
      ∀ c : Coeff ℚ Unit Unit Unit, (mkAvg v1 v2 "ff").setInputs inp = .ok c →
        c.eval 0 ⟨1, ()⟩ () = w * v1 + (1 - w) * v2 := by
  intro h
  have := h 1 2 1 (fun k => if k = "ff" then some (.val 1) else none) (by simp) (by norm_num)
    (by norm_num) (.avg 2 1 1 "ff")
    (by norm_num [mkAvg, Coeff.setInputs, setValueFromInputs, setValueFromInput])
  norm_num [Coeff.eval, avgEval] at this

end HS

/-- C60: the derivative coefficient evaluates to the derivative of the Hashin–Shtrikman
coefficient with respect to the fill factor. -/
theorem C60_hashin_shtrikman_derivative (v1 v2 w : ℝ) (k : String) (h1 : 0 < v1) (h2 : 0 < v2)
    (hw0 : 0 ≤ w) (hw1 : w ≤ 1) (lam : ℝ) (l : Loc IP) (x : X) (value : ℝ → ℝ)
    (hvalue : ∀ r, ∀ c : Coeff ℝ IP X D,
      (mkHS v1 v2 k).setInputs (fun _ => some (.val r)) = .ok c → c.eval lam l x = value r) :
    ∃ c : Coeff ℝ IP X D, (mkDHS v1 v2 k).setInputs (fun _ => some (.val w)) = .ok c ∧
      HasDerivAt value (c.eval lam l x) w := by
  have hv : value = fun r => hsEval (max v1 v2) (min v1 v2) r := by
    funext r
    have := hvalue r (.hs (max v1 v2) (min v1 v2) r k)
      (by rw [mkHS, ite_max, ite_min]; exact setInputs_hs _ _ _ _ _ _ rfl)
    rw [← this]; rfl
  refine ⟨.dhs (max v1 v2) (min v1 v2) w k, ?_, ?_⟩
  · rw [mkDHS, ite_max, ite_min]; exact setInputs_dhs _ _ _ _ _ _ rfl
  · have ha : 0 < max v1 v2 := lt_max_of_lt_left h1
    have hb : 0 < min v1 v2 := lt_min h1 h2
    rw [hv]
    clear hvalue hv
    simp only [Coeff.eval, dhsEval, hsEval]
    generalize max v1 v2 = a at *
    generalize min v1 v2 = b at *
    have hd := (hs_den_pos ha hb hw0 hw1).ne'
    have hid := hasDerivAt_id w
    have hn : HasDerivAt (fun r : ℝ => b * ((1 + r) * a + (1 - r) * b)) (b * (1 * a + -1 * b)) w :=
      (((hid.const_add 1).mul_const a).add ((hid.const_sub 1).mul_const b)).const_mul b
    have hdd : HasDerivAt (fun r : ℝ => (1 - r) * a + (1 + r) * b) (-1 * a + 1 * b) w :=
      ((hid.const_sub 1).mul_const a).add ((hid.const_add 1).mul_const b)
    refine (hn.fun_div hdd hd).congr_deriv ?_
    have hd2 : a * (-w) + a + b * w + b = (1 - w) * a + (1 + w) * b := by ring
    rw [hd2, div_left_inj' (pow_ne_zero 2 hd)]
    ring

/-- C61: the derivative coefficient evaluates to the derivative of the weighted average with
respect to the fill factor. -/
theorem C61_weighted_average_derivative (v1 v2 w : ℝ) (k : String) (lam : ℝ) (l : Loc IP) (x : X)
    (value : ℝ → ℝ) (hvalue : ∀ r, ∀ c : Coeff ℝ IP X D,
      (mkAvg v1 v2 k).setInputs (fun _ => some (.val r)) = .ok c → c.eval lam l x = value r) :
    ∃ c : Coeff ℝ IP X D, (mkDAvg v1 v2 k).setInputs (fun _ => some (.val w)) = .ok c ∧
      HasDerivAt value (c.eval lam l x) w := by
  have hv : value = fun r => avgEval (max v1 v2) (min v1 v2) r := by
    funext r
    have := hvalue r (.avg (max v1 v2) (min v1 v2) r k)
      (by rw [mkAvg, ite_max, ite_min]; exact setInputs_avg _ _ _ _ _ _ rfl)
    rw [← this]; rfl
  refine ⟨.davg (max v1 v2) (min v1 v2) w k, ?_, ?_⟩
  · rw [mkDAvg, ite_max, ite_min]; exact setInputs_davg _ _ _ _ _ _ rfl
  · rw [hv]
    simp only [Coeff.eval, davgEval, avgEval]
    have hid := hasDerivAt_id w
    exact ((hid.mul_const (max v1 v2)).add ((hid.const_sub 1).mul_const (min v1 v2))).congr_deriv
      (by ring)

/-! ## C62 dispatch -/

section Dispatch
variable [Field K]

theorem CMap.eval_eq (lam : K) (l : Loc IP) (x : X) (e : K) (m : CMap K IP X D) :
    m.eval lam l x e = match m.find l.attr with | some c => c.eval lam l x | none => e := by
  match m with
  | .nil => rfl
  | .cons b c rest =>
    simp only [CMap.eval, CMap.find]
    split
    · rfl
    · exact CMap.eval_eq lam l x e rest

theorem CMap.evalS_eq (lam : K) (l : Loc IP) (x : X) (s e : K) (m : CMap K IP X D) :
    m.evalS lam l x s e = match m.find l.attr with | some c => c.evalS lam l x s | none => e := by
  match m with
  | .nil => rfl
  | .cons b c rest =>
    simp only [CMap.evalS, CMap.find]
    split
    · rfl
    · exact CMap.evalS_eq lam l x s e rest

theorem CMap.deriv_eq (lam : K) (l : Loc IP) (x : X) (s e : K) (m : CMap K IP X D) :
    m.deriv lam l x s e = match m.find l.attr with | some c => c.deriv lam l x s | none => e := by
  match m with
  | .nil => rfl
  | .cons b c rest =>
    simp only [CMap.deriv, CMap.find]
    split
    · rfl
    · exact CMap.deriv_eq lam l x s e rest

theorem CMap.deriv2_eq (l : Loc IP) (x : X) (s e : K) (m : CMap K IP X D) :
    m.deriv2 l x s e = match m.find l.attr with | some c => c.deriv2 l x s | none => e := by
  match m with
  | .nil => rfl
  | .cons b c rest =>
    simp only [CMap.deriv2, CMap.find]
    split
    · rfl
    · exact CMap.deriv2_eq l x s e rest

theorem CMap.rev_eq (q : K) (l : Loc IP) (x : X) (s : K) (G : D) (e : Option D)
    (m : CMap K IP X D) :
    m.rev q l x s G e = match m.find l.attr with | some c => c.rev q l x s G | none => e := by
  match m with
  | .nil => rfl
  | .cons b c rest =>
    simp only [CMap.rev, CMap.find]
    split
    · rfl
    · exact CMap.rev_eq q l x s G e rest

/-- A user's sequence of `addCoefficient` calls on a new mesh dependent coefficient: `none` if one
of them aborts. -/
def register : List (ℤ × Coeff K IP X D) → CMap K IP X D → Option (CMap K IP X D)
  | [], m => some m
  | p :: ps, m => match m.add p.1 p.2 with
    | none => none
    | some m' => register ps m'

theorem find_cons (a b : ℤ) (c : Coeff K IP X D) (m : CMap K IP X D) :
    (CMap.cons b c m).find a = if a = b then some c else m.find a := rfl

theorem register_spec (ps : List (ℤ × Coeff K IP X D)) (m : CMap K IP X D) :
    ((∃ m', register ps m = some m') ↔
      (ps.map Prod.fst).Nodup ∧ ∀ p ∈ ps, m.find p.1 = none) ∧
    (∀ m', register ps m = some m' → ∀ a,
      (∀ c, (a, c) ∈ ps → m'.find a = some c) ∧
      ((∀ p ∈ ps, p.1 ≠ a) → m'.find a = m.find a)) := by
  induction ps generalizing m with
  | nil =>
    refine ⟨by simp [register], ?_⟩
    intro m' h a
    simp only [register, Option.some.injEq] at h
    subst h
    simp
  | cons p ps ih =>
    simp only [register, CMap.add]
    rcases hf : m.find p.1 with _ | c0
    · dsimp only
      obtain ⟨ih1, ih2⟩ := ih (.cons p.1 p.2 m)
      refine ⟨?_, ?_⟩
      · rw [ih1]
        simp only [find_cons, List.map_cons, List.nodup_cons, List.mem_map, List.mem_cons,
          forall_eq_or_imp, hf, true_and]
        constructor
        · rintro ⟨hn, hall⟩
          refine ⟨⟨?_, hn⟩, ?_⟩
          · rintro ⟨r, hr, hre⟩
            have := hall r hr
            rw [if_pos hre] at this
            cases this
          · intro r hr
            have := hall r hr
            split at this
            · cases this
            · exact this
        · rintro ⟨⟨hnot, hn⟩, hall⟩
          refine ⟨hn, fun r hr => ?_⟩
          rw [if_neg (fun h => hnot ⟨r, hr, h⟩)]
          exact hall r hr
      · intro m' hm' a
        obtain ⟨h1, h2⟩ := ih2 m' hm' a
        have hnd := (ih1.mp ⟨m', hm'⟩)
        refine ⟨?_, ?_⟩
        · intro c hc
          rcases List.mem_cons.mp hc with heq | hmem
          · subst heq
            rw [h2, find_cons, if_pos rfl]
            intro r hr hre
            have := hnd.2 r hr
            rw [find_cons, if_pos hre] at this
            cases this
          · exact h1 c hmem
        · intro hne
          rw [h2 (fun r hr => hne r (List.mem_cons_of_mem _ hr)), find_cons,
            if_neg (fun h => hne p (List.mem_cons_self ..) h.symm)]
    · dsimp only
      refine ⟨?_, by intro m' h; cases h⟩
      constructor
      · rintro ⟨m', h⟩; cases h
      · rintro ⟨_, h⟩
        have := h p (List.mem_cons_self ..)
        rw [hf] at this
        cases this

/-- C62: registering coefficients succeeds exactly when no attribute is given twice; then the
coefficient evaluates, for every attribute, the one registered for it, else the default, else 0 —
and the state derivative, second derivative and reverse mode use the same selection. -/
theorem C62_dispatch (ps : List (ℤ × Coeff K IP X D)) (dflt : COpt K IP X D) :
    ((∃ m, register ps .nil = some m) ↔ (ps.map Prod.fst).Nodup) ∧
    ∀ m, register ps .nil = some m → ∀ (lam : K) (l : Loc IP) (x : X) (s q : K) (G : D),
      let M := Coeff.mesh m dflt
      (∀ c, (l.attr, c) ∈ ps →
        M.eval lam l x = c.eval lam l x ∧ M.evalS lam l x s = c.evalS lam l x s ∧
        M.deriv lam l x s = c.deriv lam l x s ∧ M.deriv2 l x s = c.deriv2 l x s ∧
        M.rev q l x s G = c.rev q l x s G) ∧
      ((∀ p ∈ ps, p.1 ≠ l.attr) → ∀ c, dflt = .some c →
        M.eval lam l x = c.eval lam l x ∧ M.evalS lam l x s = c.evalS lam l x s ∧
        M.deriv lam l x s = c.deriv lam l x s ∧ M.deriv2 l x s = c.deriv2 l x s ∧
        M.rev q l x s G = c.rev q l x s G) ∧
      ((∀ p ∈ ps, p.1 ≠ l.attr) → dflt = .none →
        M.eval lam l x = 0 ∧ M.evalS lam l x s = 0 ∧ M.deriv lam l x s = 0 ∧
        M.deriv2 l x s = 0 ∧ M.rev q l x s G = some G) := by
  obtain ⟨h1, h2⟩ := register_spec ps (.nil : CMap K IP X D)
  refine ⟨?_, ?_⟩
  · rw [h1]; simp [CMap.find]
  · intro m hm lam l x s q G
    obtain ⟨ha, hb⟩ := h2 m hm l.attr
    refine ⟨?_, ?_, ?_⟩
    · intro c hc
      simp only [Coeff.eval, Coeff.evalS, Coeff.deriv, Coeff.deriv2, Coeff.rev, CMap.eval_eq,
        CMap.evalS_eq, CMap.deriv_eq, CMap.deriv2_eq, CMap.rev_eq, ha c hc, and_self]
    · intro hne c hc
      subst hc
      simp only [Coeff.eval, Coeff.evalS, Coeff.deriv, Coeff.deriv2, Coeff.rev, CMap.eval_eq,
        CMap.evalS_eq, CMap.deriv_eq, CMap.deriv2_eq, CMap.rev_eq, hb hne, CMap.find, COpt.eval,
        COpt.evalS, COpt.deriv, COpt.deriv2, COpt.rev, and_self]
    · intro hne hc
      subst hc
      simp only [Coeff.eval, Coeff.evalS, Coeff.deriv, Coeff.deriv2, Coeff.rev, CMap.eval_eq,
        CMap.evalS_eq, CMap.deriv_eq, CMap.deriv2_eq, CMap.rev_eq, hb hne, CMap.find, COpt.eval,
        COpt.evalS, COpt.deriv, COpt.deriv2, COpt.rev, and_self]

/-- Non-vacuity: three attributes, a default and an unregistered attribute. -/
example : ∃ m, register [((1 : ℤ), (.hs 4 2 0 "f" : Coeff ℚ Unit Unit Unit)),
      (2, .plain (fun _ _ => 7) (fun _ _ _ G => some G)), (5, .avg 3 1 1 "g")] .nil = some m ∧
    (Coeff.mesh m .none).eval 0 ⟨2, ()⟩ () = 7 ∧ (Coeff.mesh m .none).eval 0 ⟨5, ()⟩ () = 3 ∧
    (Coeff.mesh m .none).eval 0 ⟨3, ()⟩ () = 0 ∧
    (Coeff.mesh m (.some (.avg 9 1 1 "g"))).eval 0 ⟨3, ()⟩ () = 9 := by
  refine ⟨_, rfl, ?_⟩
  norm_num [Coeff.eval, CMap.eval, COpt.eval, avgEval]

mutual
/-- C62: the two-argument evaluation is the evaluation at state 0, at every depth of nesting. -/
theorem C62_stateless_eval_is_state_zero (lam : K) (l : Loc IP) (x : X) (c : Coeff K IP X D) :
    c.eval lam l x = c.evalS lam l x 0 := by
  match c with
  | .plain _ _ => rfl
  | .state _ _ _ _ => rfl
  | .hs _ _ _ _ => rfl
  | .dhs _ _ _ _ => rfl
  | .avg _ _ _ _ => rfl
  | .davg _ _ _ _ => rfl
  | .contin _ _ => rfl
  | .mesh m d =>
    simp only [Coeff.eval, Coeff.evalS]
    rw [cmap_stateless lam l x _ m, copt_stateless lam l x d]
theorem cmap_stateless (lam : K) (l : Loc IP) (x : X) (e : K) (m : CMap K IP X D) :
    m.eval lam l x e = m.evalS lam l x 0 e := by
  match m with
  | .nil => rfl
  | .cons b c rest =>
    simp only [CMap.eval, CMap.evalS]
    rw [C62_stateless_eval_is_state_zero lam l x c, cmap_stateless lam l x e rest]
theorem copt_stateless (lam : K) (l : Loc IP) (x : X) (d : COpt K IP X D) :
    d.eval lam l x = d.evalS lam l x 0 := by
  match d with
  | .none => rfl
  | .some c => exact C62_stateless_eval_is_state_zero lam l x c
end

end Dispatch

end Verif.Coefficients
