import Verif.DemagAgg
import Verif.CommonIntegProps
import Mathlib.Data.Fin.VecNotation

/-!
Property C227: the aggregate of the demagnetisation margin.
-/

namespace Verif.DemagAgg
open Finset Verif.CommonInteg

set_option linter.unusedSimpArgs false

variable {nt nb : ℕ}

/-- Specification: the component of `B` along the direction of `M`. -/
noncomputable def along (B M : Fin 2 → ℝ) : ℝ := ∑ k, B k * (M k / Real.sqrt (∑ k, M k ^ 2))

/-- Specification: how far the flux density along the magnetisation lies below the knee. -/
noncomputable def lack (x : Fields nt nb × DPt nt nb) : ℝ :=
  x.2.knee (temperatureAt x.1 x.2) - along (fluxAt x.1 x.2) (x.2.mag (temperatureAt x.1 x.2))

/-- Specification: every quadrature point of every element, with the fields there. -/
def points (es : List (Fields nt nb × List (DPt nt nb))) : List (Fields nt nb × DPt nt nb) :=
  es.flatMap fun e => e.2.map fun p => (e.1, p)

/-- The point is magnetised at its temperature. -/
def Magnetised (x : Fields nt nb × DPt nt nb) : Prop := x.2.mag (temperatureAt x.1 x.2) ≠ 0

/-- The physical weight of a point. -/
def wt (x : Fields nt nb × DPt nt nb) : ℝ := x.2.w * x.2.J

theorem norm_pos {M : Fin 2 → ℝ} (h : M ≠ 0) : 0 < Real.sqrt (M 0 * M 0 + M 1 * M 1) := by
  apply Real.sqrt_pos.2
  by_contra hc
  have h0 : M 0 = 0 := by nlinarith [mul_self_nonneg (M 0), mul_self_nonneg (M 1)]
  have h1 : M 1 = 0 := by nlinarith [mul_self_nonneg (M 0), mul_self_nonneg (M 1)]
  exact h (by funext k; fin_cases k <;> simp [h0, h1])

theorem margin_eq (f : Fields nt nb) (p : DPt nt nb) (h : Magnetised (f, p)) : margin f p = some (lack (f, p)) := by
  have hp := norm_pos h
  simp only [margin]
  rw [if_neg (by simpa using hp.ne')]
  simp only [lack, along, Fin.sum_univ_two, pow_two]
  congr 2
  ring

/-- **C227** A point without magnetisation makes the margin, and so the numerator, the denominator and the aggregate over the whole mesh, not a number. -/
theorem margin_none (f : Fields nt nb) (p : DPt nt nb) (h : ¬ Magnetised (f, p)) : margin f p = none := by
  have h : p.mag (temperatureAt f p) = 0 := by simpa [Magnetised] using h
  simp [margin, h]

theorem num_eq (rho tm : ℝ) (f : Fields nt nb) (ps : List (DPt nt nb)) (h : ∀ p ∈ ps, Magnetised (f, p)) :
    num rho tm f ps = some ((ps.map fun p => wt (f, p) * lack (f, p) * Real.exp (rho * (lack (f, p) - tm))).sum) := by
  induction ps with
  | nil => simp [num]
  | cons p ps ih =>
    rw [num, margin_eq f p (h p (by simp)), ih fun q hq => h q (by simp [hq])]
    simp only [Option.bind_some, Option.map_some, List.map_cons, List.sum_cons, wt]
    congr 2; ring

theorem den_eq (rho tm : ℝ) (f : Fields nt nb) (ps : List (DPt nt nb)) (h : ∀ p ∈ ps, Magnetised (f, p)) :
    den rho tm f ps = some ((ps.map fun p => wt (f, p) * Real.exp (rho * (lack (f, p) - tm))).sum) := by
  induction ps with
  | nil => simp [den]
  | cons p ps ih =>
    rw [den, margin_eq f p (h p (by simp)), ih fun q hq => h q (by simp [hq])]
    simp only [Option.bind_some, Option.map_some, List.map_cons, List.sum_cons, wt]
    congr 2; ring

theorem total_eq (h : Fields nt nb → List (DPt nt nb) → Option ℝ) (v : Fields nt nb × DPt nt nb → ℝ)
    (es : List (Fields nt nb × List (DPt nt nb))) (hm : ∀ x ∈ points es, Magnetised x)
    (hh : ∀ f ps, (∀ p ∈ ps, Magnetised (f, p)) → h f ps = some ((ps.map fun p => v (f, p)).sum)) :
    total h es = some (((points es).map v).sum) := by
  induction es with
  | nil => simp [total, points]
  | cons e es ih =>
    have h1 : ∀ p ∈ e.2, Magnetised (e.1, p) := fun p hp => hm _ (by simp [points, hp])
    have h2 : ∀ x ∈ points es, Magnetised x := fun x hx => hm x (by
      simp only [points, List.flatMap_cons, List.mem_append] at hx ⊢; exact Or.inr hx)
    rw [total, hh _ _ h1, ih h2]
    simp [points, List.map_flatMap, Function.comp_def]

theorem sum_get (l : List (Fields nt nb × DPt nt nb)) (v : Fields nt nb × DPt nt nb → ℝ) :
    (l.map v).sum = ∑ i : Fin l.length, v (l.get i) := by
  rw [← List.sum_ofFn]
  congr 1
  exact List.ext_getElem (by simp) (by simp)

/-- **C227** The aggregate is the mean of the margins of all quadrature points, weighted by `w e^{ρ margin}`; the offset `true_max` only scales numerator and denominator
and drops out. -/
theorem C227_mean (rho tm : ℝ) (es : List (Fields nt nb × List (DPt nt nb))) (hm : ∀ x ∈ points es, Magnetised x)
    (hw : ∀ x ∈ points es, 0 < wt x) (hne : points es ≠ []) :
    aggregate rho tm es = some (tilted univ (fun i => wt ((points es).get i)) (fun i => lack ((points es).get i)) rho) := by
  have e1 := total_eq (num rho tm) (fun x => wt x * lack x * Real.exp (rho * (lack x - tm))) es hm fun f ps h => num_eq rho tm f ps h
  have e2 := total_eq (den rho tm) (fun x => wt x * Real.exp (rho * (lack x - tm))) es hm fun f ps h => den_eq rho tm f ps h
  have hs : (univ : Finset (Fin (points es).length)).Nonempty := ⟨⟨0, List.length_pos_iff.2 hne⟩, mem_univ _⟩
  have hd := tilted_den_pos univ (fun i => wt ((points es).get i)) (fun i => lack ((points es).get i)) rho hs
    (fun i _ => hw _ (List.get_mem _ _))
  rw [sum_get] at e1 e2
  have ex : ∀ g : ℝ, Real.exp (rho * (g - tm)) = Real.exp (-(rho * tm)) * Real.exp (rho * g) := fun g => by
    rw [← Real.exp_add]; congr 1; ring
  have e3 : ∑ i : Fin (points es).length, wt ((points es).get i) * lack ((points es).get i) * Real.exp (rho * (lack ((points es).get i) - tm)) =
      Real.exp (-(rho * tm)) * ∑ i : Fin (points es).length, wt ((points es).get i) * lack ((points es).get i) * Real.exp (rho * lack ((points es).get i)) := by
    rw [mul_sum]; exact sum_congr rfl fun i _ => by rw [ex]; ring
  have e4 : ∑ i : Fin (points es).length, wt ((points es).get i) * Real.exp (rho * (lack ((points es).get i) - tm)) =
      Real.exp (-(rho * tm)) * ∑ i : Fin (points es).length, wt ((points es).get i) * Real.exp (rho * lack ((points es).get i)) := by
    rw [mul_sum]; exact sum_congr rfl fun i _ => by rw [ex]; ring
  rw [aggregate, e1, e2, e3, e4]
  simp only [Option.bind_some]
  rw [if_neg (mul_pos (Real.exp_pos _) hd).ne']
  congr 1
  rw [mul_div_mul_left _ _ (Real.exp_pos _).ne']
  rfl

/-- **C227** It is between the smallest and the largest margin, and grows with `ρ`. -/
theorem C227_between (rho tm lo hi : ℝ) (es : List (Fields nt nb × List (DPt nt nb))) (hm : ∀ x ∈ points es, Magnetised x)
    (hw : ∀ x ∈ points es, 0 < wt x) (hne : points es ≠ []) (hlo : ∀ x ∈ points es, lo ≤ lack x) (hhi : ∀ x ∈ points es, lack x ≤ hi) :
    ∃ a, aggregate rho tm es = some a ∧ lo ≤ a ∧ a ≤ hi ∧
      ∀ rho' tm', rho ≤ rho' → ∃ a', aggregate rho' tm' es = some a' ∧ a ≤ a' := by
  have hs : (univ : Finset (Fin (points es).length)).Nonempty := ⟨⟨0, List.length_pos_iff.2 hne⟩, mem_univ _⟩
  have hww : ∀ i ∈ (univ : Finset (Fin (points es).length)), 0 < wt ((points es).get i) := fun i _ => hw _ (List.get_mem _ _)
  have hd := tilted_den_pos univ (fun i => wt ((points es).get i)) (fun i => lack ((points es).get i)) rho hs hww
  refine ⟨_, C227_mean rho tm es hm hw hne, ?_, ?_, fun rho' tm' h => ⟨_, C227_mean rho' tm' es hm hw hne, tilted_mono _ _ _ hs hww _ _ h⟩⟩
  · rw [tilted, le_div_iff₀ hd, mul_sum]
    refine sum_le_sum fun i _ => ?_
    have := mul_le_mul_of_nonneg_left (hlo _ (List.get_mem _ i)) (mul_pos (hww i (mem_univ i)) (Real.exp_pos (rho * lack ((points es).get i)))).le
    nlinarith
  · rw [tilted, div_le_iff₀ hd, mul_sum]
    refine sum_le_sum fun i _ => ?_
    have := mul_le_mul_of_nonneg_left (hhi _ (List.get_mem _ i)) (mul_pos (hww i (mem_univ i)) (Real.exp_pos (rho * lack ((points es).get i)))).le
    nlinarith

/-- **C227** What a constraint on the aggregate guarantees: if it is at most `-gap`, with `gap` at least `W / (ρ w)` at every point (`W` the total weight), then at every quadrature
point the flux density along the magnetisation is at least the knee: no point is demagnetised. -/
theorem C227_constraint (rho tm a gap : ℝ) (hr : 0 < rho) (es : List (Fields nt nb × List (DPt nt nb))) (hm : ∀ x ∈ points es, Magnetised x)
    (hw : ∀ x ∈ points es, 0 < wt x) (hagg : aggregate rho tm es = some a) (ha : a ≤ -gap)
    (hg : ∀ x ∈ points es, ((points es).map wt).sum / (rho * wt x) ≤ gap) (x : Fields nt nb × DPt nt nb) (hx : x ∈ points es) :
    x.2.knee (temperatureAt x.1 x.2) ≤ along (fluxAt x.1 x.2) (x.2.mag (temperatureAt x.1 x.2)) := by
  have h := C227_mean rho tm es hm hw (List.ne_nil_of_mem hx)
  rw [hagg] at h
  have h := Option.some.inj h
  obtain ⟨i, rfl⟩ := List.get_of_mem hx
  have := tilted_gap univ (fun i => wt ((points es).get i)) (fun i => lack ((points es).get i)) (fun i _ => hw _ (List.get_mem _ _)) rho hr i (mem_univ i)
  rw [← h, ← sum_get] at this
  have h2 := hg _ (List.get_mem (points es) i)
  have h3 : lack ((points es).get i) ≤ 0 := by linarith
  rw [lack] at h3
  linarith

/-- **C227** Only the direction of the magnetisation counts: scaling it by a positive factor, different from point to point, changes no margin. -/
theorem C227_direction (f : Fields nt nb) (p : DPt nt nb) (c : ℝ) (hc : 0 < c) :
    margin f { p with mag := fun T k => c * p.mag T k } = margin f p := by
  have ht : temperatureAt f { p with mag := fun T k => c * p.mag T k } = temperatureAt f p := rfl
  have hf : fluxAt f { p with mag := fun T k => c * p.mag T k } = fluxAt f p := rfl
  simp only [margin, ht, hf]
  generalize p.mag (temperatureAt f p) = M
  have e : Real.sqrt (c * M 0 * (c * M 0) + c * M 1 * (c * M 1)) = c * Real.sqrt (M 0 * M 0 + M 1 * M 1) := by
    rw [show c * M 0 * (c * M 0) + c * M 1 * (c * M 1) = c ^ 2 * (M 0 * M 0 + M 1 * M 1) by ring, Real.sqrt_mul (by positivity), Real.sqrt_sq hc.le]
  rw [e]
  by_cases h : Real.sqrt (M 0 * M 0 + M 1 * M 1) = 0
  · simp [h]
  · rw [if_neg (mul_ne_zero hc.ne' h), if_neg h]
    congr 2
    field_simp

/-- **C227** With fields the temperature and the flux density are those of the fields at the point, the `y` coefficients following the `x` coefficients; without a temperature
100 °C is used; without a flux density 99 T in both directions, so that the margin reports no risk for any magnet with a magnetisation in the first quadrant and a knee
below 99 T. -/
theorem C227_fields (t : Fin nt → ℝ) (bx by' : Fin nb → ℝ) (o : Option (Fin nt → ℝ)) (b : Option (Fin (nb + nb) → ℝ)) (p : DPt nt nb) :
    temperatureAt ⟨some t, b⟩ p = ∑ i, p.tShape i * t i ∧ temperatureAt ⟨none, b⟩ p = 373.15 ∧
    fluxAt ⟨o, some (Fin.append bx by')⟩ p = ![∑ i, p.bShape i * bx i, ∑ i, p.bShape i * by' i] ∧
    ((∀ k, 0 ≤ p.mag (temperatureAt ⟨o, none⟩ p) k) → Magnetised (⟨o, none⟩, p) → p.knee (temperatureAt ⟨o, none⟩ p) < 99 →
      lack (⟨o, none⟩, p) < 0) := by
  refine ⟨rfl, by norm_num [temperatureAt], ?_, ?_⟩
  · funext k
    fin_cases k
    · simp [fluxAt]
    · change (∑ i, p.bShape i * Fin.append bx by' (Fin.natAdd nb i)) = ∑ i, p.bShape i * by' i
      simp only [Fin.append_right]
  · intro hk hm hkn
    have hp := norm_pos hm
    have e : lack (⟨o, none⟩, p) = p.knee (temperatureAt ⟨o, none⟩ p) - (99 * p.mag (temperatureAt ⟨o, none⟩ p) 0 + 99 * p.mag (temperatureAt ⟨o, none⟩ p) 1) /
        Real.sqrt (p.mag (temperatureAt ⟨o, none⟩ p) 0 * p.mag (temperatureAt ⟨o, none⟩ p) 0 + p.mag (temperatureAt ⟨o, none⟩ p) 1 * p.mag (temperatureAt ⟨o, none⟩ p) 1) := by
      simp only [lack, along, Fin.sum_univ_two, pow_two, fluxAt]; ring
    rw [e]
    change 0 < _ at hp
    generalize p.mag (temperatureAt ⟨o, none⟩ p) = M at *
    have h0 := hk 0
    have h1 := hk 1
    have : Real.sqrt (M 0 * M 0 + M 1 * M 1) ≤ M 0 + M 1 := by
      rw [Real.sqrt_le_left (by linarith)]; nlinarith
    have : 99 ≤ (99 * M 0 + 99 * M 1) / Real.sqrt (M 0 * M 0 + M 1 * M 1) := by
      rw [le_div_iff₀ hp]; linarith
    linarith

/-- **C227** (negation) One point without magnetisation (a temperature at which the magnet has lost it, or an element that is no magnet) makes the aggregate not a number, whatever
the rest of the mesh is. -/
theorem C227_unmagnetised_false (rho tm : ℝ) (es : List (Fields nt nb × List (DPt nt nb))) (x : Fields nt nb × DPt nt nb) (hx : x ∈ points es)
    (hm : ¬ Magnetised x) : aggregate rho tm es = none := by
  have hn : ∀ (f : Fields nt nb) (ps : List (DPt nt nb)), (∃ p ∈ ps, ¬ Magnetised (f, p)) → num rho tm f ps = none := by
    intro f ps
    induction ps with
    | nil => simp
    | cons q ps ih =>
      rintro ⟨p, hp, h⟩
      rw [num]
      rcases List.mem_cons.1 hp with rfl | hp
      · rw [margin_none f p h]; rfl
      · rw [ih ⟨p, hp, h⟩]; cases margin f q <;> rfl
  have ht : total (num rho tm) es = none := by
    induction es with
    | nil => simp [points] at hx
    | cons e es ih =>
      rw [total]
      simp only [points, List.flatMap_cons, List.mem_append, List.mem_map] at hx
      rcases hx with ⟨p, hp, rfl⟩ | hx
      · rw [hn e.1 e.2 ⟨p, hp, hm⟩]; rfl
      · rw [ih hx]; cases num rho tm e.1 e.2 <;> rfl
  rw [aggregate, ht]; rfl

/-! Non-vacuity: an element with two points, magnetised along `x` with a knee of 1/2; the flux density is 2 at the first and 1 at the second. -/

/-- Witness. -/
noncomputable def exMesh : List (Fields 1 2 × List (DPt 1 2)) :=
  [(⟨some ![300], some ![2, 1, 0, 0]⟩,
    [⟨1, 1, ![1], ![1, 0], fun _ => 1 / 2, fun T => ![T, 0]⟩, ⟨1, 2, ![1], ![0, 1], fun _ => 1 / 2, fun T => ![T, 0]⟩])]

example : (∀ x ∈ points exMesh, Magnetised x) ∧ (∀ x ∈ points exMesh, 0 < wt x) ∧ points exMesh ≠ [] ∧
    ∀ x ∈ points exMesh, -(3 / 2) ≤ lack x ∧ lack x ≤ -(1 / 2) := by
  have hm : ∀ x ∈ points exMesh, Magnetised x := by
    intro x hx
    simp only [points, exMesh, List.flatMap_cons, List.flatMap_nil, List.map_cons, List.map_nil, List.append_nil, List.mem_cons, List.not_mem_nil, or_false] at hx
    rcases hx with rfl | rfl <;> intro h <;> have := congrFun h 0 <;> norm_num [temperatureAt] at this
  refine ⟨hm, ?_, by simp [points, exMesh], ?_⟩
  · intro x hx
    simp only [points, exMesh, List.flatMap_cons, List.flatMap_nil, List.map_cons, List.map_nil, List.append_nil, List.mem_cons, List.not_mem_nil, or_false] at hx
    rcases hx with rfl | rfl <;> norm_num [wt]
  · intro x hx
    simp only [points, exMesh, List.flatMap_cons, List.flatMap_nil, List.map_cons, List.map_nil, List.append_nil, List.mem_cons, List.not_mem_nil, or_false] at hx
    have s : Real.sqrt ((300 : ℝ) ^ 2) = 300 := Real.sqrt_sq (by norm_num)
    rcases hx with rfl | rfl <;> simp [lack, along, fluxAt, temperatureAt, Fin.sum_univ_two, Matrix.cons_val, Fin.castAdd, Fin.castLE, s] <;> norm_num

end Verif.DemagAgg
