import Mathlib.Analysis.SpecialFunctions.Sqrt
import Mathlib.Analysis.SpecialFunctions.Complex.Arg
import Mathlib.Analysis.Calculus.Deriv.Inv
import Mathlib.Analysis.Calculus.Deriv.Add
import Mathlib.Analysis.Calculus.Deriv.Mul
import Mathlib.Tactic.Ring
import Mathlib.Tactic.FieldSimp
import Mathlib.Tactic.FinCases
import Mathlib.Tactic.LinearCombination
import Mathlib.Tactic.Linarith
import Verif.SourceFields

/-! # Magnetization and current-density source fields: property theorems (C164–C168) -/

namespace Verif.Source

open Verif.Dense Verif.MatCoeffs Filter Topology

/-! ### Specification -/

/-- The point `x + t δ`. -/
def line (x δ : V3) (t : ℝ) : V3 := fun i => x i + t * δ i

/-- The reverse pass `rev` of the source `S` is the transposed derivative at `x`: for every weight `b` and every direction
`δ`, the source has values along `x + t δ` near `t = 0`, and `rev x b · δ` is the derivative of `b · S(x + t δ)`. -/
def RevExact (S : V3 → Option V3) (rev : V3 → V3 → Option V3) (x : V3) : Prop :=
  ∀ b, ∃ g, rev x b = some g ∧ ∀ δ, ∃ J : ℝ → V3, (∀ᶠ t in 𝓝 (0 : ℝ), S (line x δ t) = some (J t)) ∧
    HasDerivAt (fun t => dotv b (J t)) (dotv g δ) 0

/-- The `i`-th unit vector. -/
def e3 (i : Fin 3) : V3 := fun j => if j = i then 1 else 0

/-- The divergence of the source vanishes at `x`. -/
def DivFree (S : V3 → Option V3) (x : V3) : Prop :=
  ∃ d : Fin 3 → ℝ, (∀ i, ∃ J : ℝ → V3, (∀ᶠ t in 𝓝 (0 : ℝ), S (line x (e3 i) t) = some (J t)) ∧
    HasDerivAt (fun t => J t i) (d i) 0) ∧ ∑ i, d i = 0

/-- The source has a value of unit length at `x`. -/
def Unit (S : V3 → Option V3) (x : V3) : Prop := ∃ J, S x = some J ∧ dotv J J = 1

/-- Rotation about the z axis. -/
noncomputable def rot (θ : ℝ) (v : V3) : V3 :=
  ![Real.cos θ * v 0 - Real.sin θ * v 1, Real.sin θ * v 0 + Real.cos θ * v 1, v 2]

/-- Not on the z axis. -/
def OffAxis (x : V3) : Prop := x 0 ≠ 0 ∨ x 1 ≠ 0

/-! ### Lemmas -/

theorem dot3 (a b : V3) : dotv a b = a 0 * b 0 + a 1 * b 1 + a 2 * b 2 := by
  simp [dotv, Fin.sum_univ_three]

theorem sq_pos2 {p q : ℝ} (h : p ≠ 0 ∨ q ≠ 0) : 0 < p * p + q * q := by
  rcases h with h | h
  · have := mul_self_pos.2 h; nlinarith [mul_self_nonneg q]
  · have := mul_self_pos.2 h; nlinarith [mul_self_nonneg p]

theorem unit2_some {p q : ℝ} (h : p ≠ 0 ∨ q ≠ 0) :
    unit2 p q = some (p / √(p * p + q * q), q / √(p * p + q * q)) := by
  have : √(p * p + q * q) ≠ 0 := (Real.sqrt_pos.2 (sq_pos2 h)).ne'
  simp [unit2, this]

theorem unit2_zero : unit2 0 0 = none := by simp [unit2]

theorem unit2_sq {p q : ℝ} {r : ℝ × ℝ} (h : unit2 p q = some r) : r.1 * r.1 + r.2 * r.2 = 1 := by
  by_cases h0 : p ≠ 0 ∨ q ≠ 0
  · rw [unit2_some h0] at h
    have hp := sq_pos2 h0
    have hs : √(p * p + q * q) * √(p * p + q * q) = p * p + q * q := Real.mul_self_sqrt hp.le
    have hn : √(p * p + q * q) ≠ 0 := (Real.sqrt_pos.2 hp).ne'
    rw [← Option.some.inj h]
    generalize √(p * p + q * q) = N at hs hn ⊢
    simp only
    field_simp
    linarith
  · push Not at h0
    rw [h0.1, h0.2, unit2_zero] at h
    exact absurd h (by simp)

theorem unit2_hasDerivAt (p q : ℝ → ℝ) (p' q' a b : ℝ) (hp : HasDerivAt p p' 0) (hq : HasDerivAt q q' 0)
    (h : p 0 ≠ 0 ∨ q 0 ≠ 0) :
    ∃ g, unit2Bar (p 0) (q 0) a b = some g ∧
      (∀ᶠ t in 𝓝 (0 : ℝ), unit2 (p t) (q t) = some (p t / √(p t * p t + q t * q t), q t / √(p t * p t + q t * q t))) ∧
      HasDerivAt (fun t => a * (p t / √(p t * p t + q t * q t)) + b * (q t / √(p t * p t + q t * q t)))
        (g.1 * p' + g.2 * q') 0 := by
  have hpos := sq_pos2 h
  have hn : √(p 0 * p 0 + q 0 * q 0) ≠ 0 := (Real.sqrt_pos.2 hpos).ne'
  refine ⟨_, if_neg hn, ?_, ?_⟩
  · rcases h with h | h
    · exact (hp.continuousAt.eventually_ne h).mono fun t ht => unit2_some (Or.inl ht)
    · exact (hq.continuousAt.eventually_ne h).mono fun t ht => unit2_some (Or.inr ht)
  · have hs : HasDerivAt (fun t => p t * p t + q t * q t) (p' * p 0 + p 0 * p' + (q' * q 0 + q 0 * q')) 0 :=
      (hp.fun_mul hp).fun_add (hq.fun_mul hq)
    have hr := hs.sqrt hpos.ne'
    have := ((hp.fun_div hr hn).const_mul a).fun_add ((hq.fun_div hr hn).const_mul b)
    refine this.congr_deriv ?_
    generalize √(p 0 * p 0 + q 0 * q 0) = n at hn ⊢
    generalize p 0 = P
    generalize q 0 = Q
    simp only
    field_simp
    ring

theorem line_hasDerivAt (x δ : V3) (i : Fin 3) : HasDerivAt (fun t => line x δ t i) (δ i) 0 := by
  exact (((hasDerivAt_id' (0 : ℝ)).mul_const (δ i)).const_add (x i)).congr_deriv (by ring)

theorem line_zero (x δ : V3) : line x δ 0 = x := by funext i; simp [line]

/-- Reverse exactness of any source that normalises an in-plane vector and permutes its entries. -/
theorem plane_exact (S : V3 → Option V3) (rev : V3 → V3 → Option V3) (x : V3) (s₁ s₂ : ℝ) (sw : Bool)
    (hS : ∀ y, S y = (unit2 (y 0) (y 1)).map fun r => if sw then ![s₁ * r.2, s₂ * r.1, 0] else ![s₁ * r.1, s₂ * r.2, 0])
    (hr : ∀ b, rev x b = (unit2Bar (x 0) (x 1) (if sw then s₂ * b 1 else s₁ * b 0) (if sw then s₁ * b 0 else s₂ * b 1)).map
      fun r => ![r.1, r.2, 0])
    (h : OffAxis x) : RevExact S rev x := by
  intro b
  obtain ⟨g, hg, -⟩ := unit2_hasDerivAt (fun _ => x 0) (fun _ => x 1) 0 0 (if sw then s₂ * b 1 else s₁ * b 0)
    (if sw then s₁ * b 0 else s₂ * b 1) (hasDerivAt_const _ _) (hasDerivAt_const _ _) h
  refine ⟨![g.1, g.2, 0], by rw [hr, hg]; rfl, fun δ => ?_⟩
  obtain ⟨g', hg', hev, hd⟩ := unit2_hasDerivAt (fun t => line x δ t 0) (fun t => line x δ t 1) (δ 0) (δ 1)
    (if sw then s₂ * b 1 else s₁ * b 0) (if sw then s₁ * b 0 else s₂ * b 1) (line_hasDerivAt x δ 0) (line_hasDerivAt x δ 1)
    (by simp only [line_zero]; exact h)
  simp only [line_zero] at hg'
  have hgg : g' = g := Option.some.inj (hg'.symm.trans hg)
  refine ⟨_, hev.mono fun t ht => by rw [hS, ht, Option.map_some], ?_⟩
  rw [hgg] at hd
  refine (hd.congr_deriv ?_).congr_of_eventuallyEq (Eventually.of_forall fun t => ?_)
  · simp [dot3]
  · cases sw <;> simp [dot3] <;> ring

theorem const_exact (S : V3 → Option V3) (c : V3) (hS : ∀ y, S y = some c) (x : V3) : RevExact S axisRev x := by
  intro b
  refine ⟨0, rfl, fun δ => ⟨fun _ => c, Eventually.of_forall fun t => hS _, ?_⟩⟩
  simpa [dot3] using hasDerivAt_const (0 : ℝ) (dotv b c)

/-- The divergence is the sum of the diagonal entries of the reverse pass. -/
theorem div_of_rev (S : V3 → Option V3) (rev : V3 → V3 → Option V3) (x : V3) (h : RevExact S rev x)
    (hz : ∀ g : Fin 3 → V3, (∀ i, rev x (e3 i) = some (g i)) → ∑ i, g i i = 0) : DivFree S x := by
  choose g hg hd using fun i => h (e3 i)
  refine ⟨fun i => g i i, fun i => ?_, hz g hg⟩
  obtain ⟨J, hJ, hD⟩ := hd i (e3 i)
  refine ⟨J, hJ, ?_⟩
  have e1 : (fun t => dotv (e3 i) (J t)) = fun t => J t i := by
    funext t
    simp [dotv, e3]
  have e2 : dotv (g i) (e3 i) = g i i := by simp [dotv, e3]
  rwa [e1, e2] at hD

/-! ### C164 Magnetization directions -/

/-- **C164** North magnets point radially outwards and south magnets inwards; the tangential ones are perpendicular to the
radius; all have unit length, lie in the plane of rotation and do not depend on the axial position. -/
theorem C164_directions (x : V3) (h : OffAxis x) :
    ∃ n s c w r : V3, north x = some n ∧ south x = some s ∧ cw x = some w ∧ ccw x = some c ∧
      dotv n n = 1 ∧ dotv s s = 1 ∧ dotv c c = 1 ∧ dotv w w = 1 ∧ n 2 = 0 ∧ s 2 = 0 ∧ c 2 = 0 ∧ w 2 = 0 ∧
      r = ![x 0, x 1, 0] ∧ 0 < dotv n r ∧ (∀ i, r i = dotv n r * n i) ∧ (∀ i, s i = -n i) ∧
      dotv c r = 0 ∧ dotv w r = 0 ∧ (∀ i, c i = -w i) ∧
      ∀ z : ℝ, north ![x 0, x 1, z] = some n ∧ south ![x 0, x 1, z] = some s ∧ cw ![x 0, x 1, z] = some w ∧
        ccw ![x 0, x 1, z] = some c := by
  have hp := sq_pos2 h
  have hs : √(x 0 * x 0 + x 1 * x 1) * √(x 0 * x 0 + x 1 * x 1) = x 0 * x 0 + x 1 * x 1 := Real.mul_self_sqrt hp.le
  have hn := Real.sqrt_pos.2 hp
  have hu := unit2_some h
  obtain ⟨N, hN⟩ : ∃ N, N = √(x 0 * x 0 + x 1 * x 1) := ⟨_, rfl⟩
  rw [← hN] at hs hn hu
  have hsq : x 0 / N * (x 0 / N) + x 1 / N * (x 1 / N) = 1 := unit2_sq hu
  have hr : x 0 / N * x 0 + x 1 / N * x 1 = N := by field_simp; linarith
  refine ⟨![x 0 / N, x 1 / N, 0], ![-(x 0 / N), -(x 1 / N), 0], ![x 1 / N, -(x 0 / N), 0], ![-(x 1 / N), x 0 / N, 0], _,
    by rw [north, hu]; rfl, by rw [south, hu]; rfl, by rw [cw, hu]; rfl, by rw [ccw, hu]; rfl, ?_, ?_, ?_, ?_,
    rfl, rfl, rfl, rfl, rfl, ?_, ?_, ?_, ?_, ?_, ?_, fun z => ⟨?_, ?_, ?_, ?_⟩⟩
  · simp [dot3]; linarith
  · simp [dot3]; linarith
  · simp [dot3]; linarith
  · simp [dot3]; linarith
  · simp [dot3]; rw [hr]; exact hn
  · intro i
    have e : dotv ![x 0 / N, x 1 / N, 0] ![x 0, x 1, 0] = N := by simp [dot3]; exact hr
    rw [e]
    fin_cases i
    · simp; field_simp
    · simp; field_simp
    · simp
  · intro i; fin_cases i <;> simp
  · simp [dot3]; ring
  · simp [dot3]; ring
  · intro i; fin_cases i <;> simp
  · simp [north, hu]
  · simp [south, hu]
  · simp [cw, hu]
  · simp [ccw, hu]

theorem rot_sq (θ : ℝ) (x : V3) : rot θ x 0 * rot θ x 0 + rot θ x 1 * rot θ x 1 = x 0 * x 0 + x 1 * x 1 := by
  simp [rot]
  nlinarith [Real.sin_sq_add_cos_sq θ]

theorem unit2_rot (θ : ℝ) (x : V3) : unit2 (rot θ x 0) (rot θ x 1) =
    (unit2 (x 0) (x 1)).map fun r => (Real.cos θ * r.1 - Real.sin θ * r.2, Real.sin θ * r.1 + Real.cos θ * r.2) := by
  unfold unit2
  simp only [rot_sq]
  split_ifs with h
  · rfl
  · simp only [Option.map_some, rot]
    congr 2
    · simp; ring
    · simp; ring

/-- **C164** Rotating the machine rotates the magnetization: for every angle, each radial or tangential magnetization of the
rotated point is the rotated magnetization (in particular both are undefined together). -/
theorem C164_rotation (θ : ℝ) (x : V3) :
    north (rot θ x) = (north x).map (rot θ) ∧ south (rot θ x) = (south x).map (rot θ) ∧
    cw (rot θ x) = (cw x).map (rot θ) ∧ ccw (rot θ x) = (ccw x).map (rot θ) := by
  refine ⟨?_, ?_, ?_, ?_⟩ <;>
  · simp only [north, south, cw, ccw]
    rw [unit2_rot]
    cases unit2 (x 0) (x 1) with
    | none => rfl
    | some r =>
      simp only [Option.map_some, Option.some.injEq]
      funext i
      fin_cases i <;> simp [rot] <;> ring

/-- **C164, violation** On the axis of rotation the four of them are not a number. -/
theorem C164_axis_false (z : ℝ) : north ![0, 0, z] = none ∧ south ![0, 0, z] = none ∧ cw ![0, 0, z] = none ∧
    ccw ![0, 0, z] = none := by
  simp [north, south, cw, ccw, unit2_zero]

/-- **C164, violation** The names of the two tangential magnetizations are exchanged: "cw" turns counter-clockwise about the
z axis (like the "ring" current), "ccw" clockwise, at every point. -/
theorem C164_clockwise_false (x : V3) (h : OffAxis x) :
    ∃ w c, cw x = some w ∧ ccw x = some c ∧ 0 < x 0 * w 1 - x 1 * w 0 ∧ x 0 * c 1 - x 1 * c 0 < 0 ∧ ring x = some w := by
  have hp := sq_pos2 h
  have hs : √(x 0 * x 0 + x 1 * x 1) * √(x 0 * x 0 + x 1 * x 1) = x 0 * x 0 + x 1 * x 1 := Real.mul_self_sqrt hp.le
  have hn := Real.sqrt_pos.2 hp
  have hu := unit2_some h
  obtain ⟨N, hN⟩ : ∃ N, N = √(x 0 * x 0 + x 1 * x 1) := ⟨_, rfl⟩
  rw [← hN] at hs hn hu
  have hr : x 0 * (x 0 / N) + x 1 * (x 1 / N) = N := by field_simp; linarith
  refine ⟨_, _, by rw [cw, hu]; rfl, by rw [ccw, hu]; rfl, ?_, ?_, by rw [ring, hu]; rfl⟩
  · simp; linarith
  · simp; linarith

/-! ### C165 Reverse passes -/

/-- **C165** Away from the axis, the reverse pass of every radial or tangential magnetization and of the ring current is the
transposed derivative; the axis-aligned and the box sources have exact reverse passes everywhere. -/
theorem C165_reverse (x : V3) :
    (OffAxis x → RevExact north northRev x ∧ RevExact south southRev x ∧ RevExact cw cwRev x ∧ RevExact ccw ccwRev x ∧
      RevExact ring ringRev x) ∧
    RevExact xAxis axisRev x ∧ RevExact yAxis axisRev x ∧ RevExact zAxis axisRev x ∧ RevExact nzAxis axisRev x ∧
    RevExact box1 box1Rev x ∧ RevExact box2 box2Rev x := by
  refine ⟨fun h => ⟨?_, ?_, ?_, ?_, ?_⟩, ?_, ?_, ?_, ?_, ?_, ?_⟩
  · exact plane_exact north northRev x 1 1 false (fun y => by simp [north]) (fun b => by simp [northRev]) h
  · exact plane_exact south southRev x (-1) (-1) false (fun y => by simp [south]) (fun b => by simp [southRev]) h
  · exact plane_exact cw cwRev x (-1) 1 true (fun y => by simp [cw]) (fun b => by simp [cwRev]) h
  · exact plane_exact ccw ccwRev x 1 (-1) true (fun y => by simp [ccw]) (fun b => by simp [ccwRev]) h
  · exact plane_exact ring ringRev x (-1) 1 true (fun y => by simp [ring]) (fun b => by simp [ringRev]) h
  · exact const_exact _ _ (fun _ => rfl) x
  · exact const_exact _ _ (fun _ => rfl) x
  · exact const_exact _ _ (fun _ => rfl) x
  · exact const_exact _ _ (fun _ => rfl) x
  · intro b
    refine ⟨_, rfl, fun δ => ⟨_, Eventually.of_forall fun t => rfl, ?_⟩⟩
    have := ((line_hasDerivAt x δ 1).sub_const (1 / 2)).const_mul (b 2 * -6)
    refine (this.congr_deriv (by rw [dot3]; simp only [Matrix.cons_val_zero, Matrix.cons_val_one, Matrix.cons_val]; ring)).congr_of_eventuallyEq (Eventually.of_forall fun t => ?_)
    simp [dot3]; ring
  · intro b
    refine ⟨_, rfl, fun δ => ⟨_, Eventually.of_forall fun t => rfl, ?_⟩⟩
    have := ((line_hasDerivAt x δ 1).sub_const (1 / 2)).const_mul (b 2 * 6)
    refine (this.congr_deriv (by rw [dot3]; simp only [Matrix.cons_val_zero, Matrix.cons_val_one, Matrix.cons_val]; ring)).congr_of_eventuallyEq (Eventually.of_forall fun t => ?_)
    simp [dot3]; ring

/-- The reverse pass cannot see a displacement along the radius: it is orthogonal to it. -/
theorem C165_radial (x b g : V3) (h : northRev x b = some g) : g 0 * x 0 + g 1 * x 1 = 0 := by
  by_cases h0 : √(x 0 * x 0 + x 1 * x 1) = 0
  · simp [northRev, unit2Bar, h0] at h
  · have hs : √(x 0 * x 0 + x 1 * x 1) * √(x 0 * x 0 + x 1 * x 1) = x 0 * x 0 + x 1 * x 1 :=
      Real.mul_self_sqrt (by nlinarith [mul_self_nonneg (x 0), mul_self_nonneg (x 1)])
    simp only [northRev, unit2Bar, if_neg h0, Option.map_some, Option.some.injEq] at h
    rw [← h]
    generalize √(x 0 * x 0 + x 1 * x 1) = N at h0 hs ⊢
    simp
    field_simp
    linear_combination (b 0 * x 0 + b 1 * x 1) * hs

example : OffAxis ![3, 4, 7] ∧ north ![3, 4, 7] = some ![3 / 5, 4 / 5, 0] := by
  refine ⟨Or.inl (by simp), ?_⟩
  have : (√(3 * 3 + 4 * 4 : ℝ)) = 5 := by rw [show (3 * 3 + 4 * 4 : ℝ) = 5 ^ 2 by norm_num]; exact Real.sqrt_sq (by norm_num)
  simp [north, unit2, this]

/-! ### C166 Current directions -/

theorem const_div (S : V3 → Option V3) (c : V3) (hS : ∀ y, S y = some c) (x : V3) : DivFree S x :=
  div_of_rev S axisRev x (const_exact S c hS x) fun g hg => by
    have : ∀ i, g i = 0 := fun i => (Option.some.inj (hg i)).symm
    simp [this]

/-- **C166** Every current source conserves charge: the divergence of the axis-aligned and the box sources vanishes
everywhere, that of the ring current everywhere off the axis. -/
theorem C166_divergence_free (x : V3) :
    DivFree xAxis x ∧ DivFree yAxis x ∧ DivFree zAxis x ∧ DivFree nzAxis x ∧ DivFree box1 x ∧ DivFree box2 x ∧
    (OffAxis x → DivFree ring x) := by
  have hrev := C165_reverse x
  refine ⟨const_div _ _ (fun _ => rfl) x, const_div _ _ (fun _ => rfl) x, const_div _ _ (fun _ => rfl) x,
    const_div _ _ (fun _ => rfl) x, ?_, ?_, fun h => ?_⟩
  · refine div_of_rev box1 box1Rev x hrev.2.2.2.2.2.1 fun g hg => ?_
    have : ∀ i, g i = ![0, -6 * e3 i 2, 0] := fun i => (Option.some.inj (hg i)).symm
    simp [this, Fin.sum_univ_three, e3]
  · refine div_of_rev box2 box2Rev x hrev.2.2.2.2.2.2 fun g hg => ?_
    have : ∀ i, g i = ![0, 6 * e3 i 2, 0] := fun i => (Option.some.inj (hg i)).symm
    simp [this, Fin.sum_univ_three, e3]
  · refine div_of_rev ring ringRev x (hrev.1 h).2.2.2.2 fun g hg => ?_
    have hn : √(x 0 * x 0 + x 1 * x 1) ≠ 0 := (Real.sqrt_pos.2 (sq_pos2 h)).ne'
    have e0 := hg 0
    have e1 := hg 1
    have e2 := hg 2
    simp only [ringRev, unit2Bar, if_neg hn, Option.map_some, Option.some.injEq, e3] at e0 e1 e2
    rw [Fin.sum_univ_three, ← e0, ← e1, ← e2]
    generalize √(x 0 * x 0 + x 1 * x 1) = N at hn
    simp
    field_simp
    ring

/-- **C166** All of them except the box sources have unit length wherever they are defined, so the magnitude of the current
density is the value the user sets for the group; and the two z directions are opposite. -/
theorem C166_unit (x : V3) :
    Unit xAxis x ∧ Unit yAxis x ∧ Unit zAxis x ∧ Unit nzAxis x ∧ (OffAxis x → Unit ring x) ∧
    nzAxis x = (zAxis x).map (fun J i => -J i) := by
  refine ⟨⟨_, rfl, by simp [dot3]⟩, ⟨_, rfl, by simp [dot3]⟩, ⟨_, rfl, by simp [dot3]⟩, ⟨_, rfl, by simp [dot3]⟩, fun h => ?_, ?_⟩
  · refine ⟨_, by rw [ring, unit2_some h]; rfl, ?_⟩
    have := unit2_sq (unit2_some h)
    simp only at this
    simp [dot3]
    linarith
  · simp only [nzAxis, zAxis, Option.map_some, Option.some.injEq]
    funext i
    fin_cases i <;> simp

/-- **C166, violation** The ring current is not a number on the axis. -/
theorem C166_ring_axis_false (z : ℝ) : ring ![0, 0, z] = none := by simp [ring, unit2_zero]

/-! The racetrack coil of TEAM problem 13 -/

/-- The point is off the edges between the straight parts and the corners, and not in the middle of the coil's bore. -/
def Smooth13 (x : V3) : Prop :=
  (|x 1| < 0.075 ∧ x 0 ≠ 0) ∨ (|x 0| < 0.075 ∧ 0.075 < |x 1|) ∨ (0.075 < |x 0| ∧ 0.075 < |x 1|)

theorem line_cont (x δ : V3) (i : Fin 3) : Tendsto (fun t => line x δ t i) (𝓝 0) (𝓝 (x i)) := by
  have := (line_hasDerivAt x δ i).continuousAt.tendsto
  simpa [line_zero] using this

theorem team13_straight (x : V3) (r : ℝ × ℝ) (hr : r.1 * r.1 + r.2 * r.2 = 1)
    (hev : ∀ δ, ∀ᶠ t in 𝓝 (0 : ℝ), team13Raw (line x δ t 0) (line x δ t 1) = (r, false)) :
    RevExact team13 team13Rev x ∧ DivFree team13 x ∧ Unit team13 x := by
  have hn : √(r.1 * r.1 + r.2 * r.2) = 1 := by rw [hr]; exact Real.sqrt_one
  have hu : unit2 r.1 r.2 = some r := by simp [unit2, hn]
  have h0 : team13Raw (x 0) (x 1) = (r, false) := by
    have := (hev 0).self_of_nhds
    simpa [line_zero] using this
  have hS : ∀ δ, ∀ᶠ t in 𝓝 (0 : ℝ), team13 (line x δ t) = some ![r.1, r.2, 0] := fun δ =>
    (hev δ).mono fun t ht => by simp only [team13, ht, hu, Option.map_some]
  have hrev : ∀ b, team13Rev x b = some 0 := by
    intro b
    simp only [team13Rev, h0, unit2Bar, hn]
    simp
  have hex : RevExact team13 team13Rev x := by
    intro b
    refine ⟨0, hrev b, fun δ => ⟨fun _ => ![r.1, r.2, 0], hS δ, ?_⟩⟩
    simpa [dot3] using hasDerivAt_const (0 : ℝ) (dotv b ![r.1, r.2, 0])
  refine ⟨hex, div_of_rev _ _ _ hex fun g hg => ?_, ![r.1, r.2, 0], ?_, by simp [dot3]; exact hr⟩
  · have : ∀ i, g i = 0 := fun i => Option.some.inj ((hg i).symm.trans (hrev _))
    simp [this]
  · have := (hS 0).self_of_nhds
    simpa [line_zero] using this

theorem team13_corner (x : V3) (cx cy : ℝ) (hne : x 0 ≠ cx ∨ x 1 ≠ cy)
    (hev : ∀ δ, ∀ᶠ t in 𝓝 (0 : ℝ), team13Raw (line x δ t 0) (line x δ t 1) =
      ((-(line x δ t 1 - cy), line x δ t 0 - cx), true)) :
    RevExact team13 team13Rev x ∧ DivFree team13 x ∧ Unit team13 x := by
  have h0 : team13Raw (x 0) (x 1) = ((-(x 1 - cy), x 0 - cx), true) := by
    have := (hev 0).self_of_nhds
    simpa [line_zero] using this
  have hne' : -(x 1 - cy) ≠ 0 ∨ x 0 - cx ≠ 0 := by
    rcases hne with h | h
    · exact Or.inr (sub_ne_zero.2 h)
    · exact Or.inl (neg_ne_zero.2 (sub_ne_zero.2 h))
  have hn : √(-(x 1 - cy) * -(x 1 - cy) + (x 0 - cx) * (x 0 - cx)) ≠ 0 := (Real.sqrt_pos.2 (sq_pos2 hne')).ne'
  have hex : RevExact team13 team13Rev x := by
    intro b
    obtain ⟨g, hg, -⟩ := unit2_hasDerivAt (fun _ => -(x 1 - cy)) (fun _ => x 0 - cx) 0 0 (b 0) (b 1)
      (hasDerivAt_const _ _) (hasDerivAt_const _ _) hne'
    refine ⟨![g.2, -g.1, 0], by simp only [team13Rev, h0, hg, Option.map_some, if_true], fun δ => ?_⟩
    obtain ⟨g', hg', he, hd⟩ := unit2_hasDerivAt (fun t => -(line x δ t 1 - cy)) (fun t => line x δ t 0 - cx) (-δ 1) (δ 0) (b 0)
      (b 1) ((line_hasDerivAt x δ 1).sub_const cy).fun_neg ((line_hasDerivAt x δ 0).sub_const cx)
      (by simp only [line_zero]; exact hne')
    simp only [line_zero] at hg'
    have hgg : g' = g := Option.some.inj (hg'.symm.trans hg)
    rw [hgg] at hd
    refine ⟨_, ((hev δ).and he).mono fun t ht => by simp only [team13, ht.1]; rw [ht.2, Option.map_some], ?_⟩
    refine (hd.congr_deriv ?_).congr_of_eventuallyEq (Eventually.of_forall fun t => ?_)
    · rw [dot3]; simp only [Matrix.cons_val_zero, Matrix.cons_val_one, Matrix.cons_val]; ring
    · beta_reduce; rw [dot3]; simp only [Matrix.cons_val_zero, Matrix.cons_val_one, Matrix.cons_val]; ring
  refine ⟨hex, div_of_rev _ _ _ hex fun g hg => ?_, ?_⟩
  · have e0 := hg 0
    have e1 := hg 1
    have e2 := hg 2
    simp only [team13Rev, h0, unit2Bar, if_neg hn, Option.map_some, if_true, Option.some.injEq, e3] at e0 e1 e2
    rw [Fin.sum_univ_three, ← e0, ← e1, ← e2]
    generalize √(-(x 1 - cy) * -(x 1 - cy) + (x 0 - cx) * (x 0 - cx)) = N at hn
    simp
    field_simp
    ring
  · refine ⟨_, by simp only [team13, h0]; rw [unit2_some hne', Option.map_some], ?_⟩
    have := unit2_sq (unit2_some hne')
    simp only at this
    rw [dot3]; simp only [Matrix.cons_val_zero, Matrix.cons_val_one, Matrix.cons_val]; linarith

/-- **C166** The current of the racetrack coil has unit length, conserves charge and has an exact reverse pass at every
point off the edges between its straight parts and corners. -/
theorem C166_racetrack (x : V3) (h : Smooth13 x) :
    RevExact team13 team13Rev x ∧ DivFree team13 x ∧ Unit team13 x := by
  have lt (i : Fin 3) {a : ℝ} (h : x i < a) (δ : V3) : ∀ᶠ t in 𝓝 (0 : ℝ), line x δ t i < a := (line_cont x δ i).eventually_lt_const h
  have gt (i : Fin 3) {a : ℝ} (h : a < x i) (δ : V3) : ∀ᶠ t in 𝓝 (0 : ℝ), a < line x δ t i := (line_cont x δ i).eventually_const_lt h
  rcases h with ⟨h1, h0⟩ | ⟨h0, h1⟩ | ⟨h0, h1⟩
  · rw [abs_lt] at h1
    refine team13_straight x (0, sgn (x 0)) ?_ fun δ => ?_
    · rcases lt_or_gt_of_ne h0 with h | h
      · simp [sgn, h, not_lt.2 h.le]
      · simp [sgn, h, not_lt.2 h.le]
    · have hs : ∀ᶠ t in 𝓝 (0 : ℝ), sgn (line x δ t 0) = sgn (x 0) := by
        rcases lt_or_gt_of_ne h0 with h | h
        · exact (lt 0 h δ).mono fun t ht => by simp [sgn, h, ht, not_lt.2 h.le, not_lt.2 ht.le]
        · exact (gt 0 h δ).mono fun t ht => by simp [sgn, h, ht, not_lt.2 h.le, not_lt.2 ht.le]
      filter_upwards [hs, gt 1 h1.1 δ, lt 1 h1.2 δ] with t a b c
      rw [team13Raw, if_pos ⟨b.le, c.le⟩, a]
  · rw [abs_lt] at h0
    refine team13_straight x (-sgn (x 1), 0) ?_ fun δ => ?_
    · rcases lt_abs.1 h1 with h | h
      · have : 0 < x 1 := lt_trans (by norm_num) h
        simp [sgn, this, not_lt.2 this.le]
      · have : x 1 < 0 := by have : (0 : ℝ) < 0.075 := by norm_num
                             linarith
        simp [sgn, this, not_lt.2 this.le]
    · rcases lt_abs.1 h1 with h | h
      · have hx : 0 < x 1 := lt_trans (by norm_num) h
        filter_upwards [gt 0 h0.1 δ, lt 0 h0.2 δ, gt 1 h δ, gt 1 hx δ] with t a b c d
        rw [team13Raw, if_neg (fun hh => absurd hh.2 (not_le.2 c)), if_pos ⟨a.le, b.le⟩]
        simp [sgn, hx, d, not_lt.2 hx.le, not_lt.2 d.le]
      · have hx : x 1 < 0 := by have : (0 : ℝ) < 0.075 := by norm_num
                                linarith
        filter_upwards [gt 0 h0.1 δ, lt 0 h0.2 δ, lt 1 (show x 1 < -0.075 by linarith) δ, lt 1 hx δ] with t a b c d
        rw [team13Raw, if_neg (fun hh => absurd hh.1 (not_le.2 c)), if_pos ⟨a.le, b.le⟩]
        simp [sgn, hx, d, not_lt.2 hx.le, not_lt.2 d.le]
  · have hc : (0 : ℝ) < 0.075 := by norm_num
    rcases lt_abs.1 h0 with h0 | h0 <;> rcases lt_abs.1 h1 with h1 | h1
    · refine team13_corner x 0.075 0.075 (Or.inl h0.ne') fun δ => ?_
      filter_upwards [gt 0 h0 δ, gt 1 h1 δ] with t a b
      rw [team13Raw, if_neg (fun hh => absurd hh.2 (not_le.2 b)), if_neg (fun hh => absurd hh.2 (not_le.2 a)), if_pos ⟨a, b⟩]
    · have h1' : x 1 < -0.075 := by linarith
      refine team13_corner x 0.075 (-0.075) (Or.inl h0.ne') fun δ => ?_
      filter_upwards [gt 0 h0 δ, lt 1 h1' δ] with t a b
      rw [team13Raw, if_neg (fun hh => absurd hh.1 (not_le.2 b)), if_neg (fun hh => absurd hh.2 (not_le.2 a)),
        if_neg (fun hh => absurd hh.2 (by linarith)), if_neg (fun hh => absurd hh.1 (not_lt.2 a.le)),
        if_neg (fun hh => absurd hh.1 (not_lt.2 a.le)), sub_neg_eq_add]
    · have h0' : x 0 < -0.075 := by linarith
      refine team13_corner x (-0.075) 0.075 (Or.inl h0'.ne) fun δ => ?_
      filter_upwards [lt 0 h0' δ, gt 1 h1 δ] with t a b
      rw [team13Raw, if_neg (fun hh => absurd hh.2 (not_le.2 b)), if_neg (fun hh => absurd hh.1 (not_le.2 a)),
        if_neg (fun hh => absurd hh.1 (by linarith)), if_pos ⟨by linarith, b⟩, sub_neg_eq_add]
    · have h0' : x 0 < -0.075 := by linarith
      have h1' : x 1 < -0.075 := by linarith
      refine team13_corner x (-0.075) (-0.075) (Or.inl h0'.ne) fun δ => ?_
      filter_upwards [lt 0 h0' δ, lt 1 h1' δ] with t a b
      rw [team13Raw, if_neg (fun hh => absurd hh.1 (not_le.2 b)), if_neg (fun hh => absurd hh.1 (not_le.2 a)),
        if_neg (fun hh => absurd hh.1 (by linarith)), if_neg (fun hh => absurd hh.2 (by linarith)),
        if_pos ⟨by linarith, by linarith⟩, sub_neg_eq_add, sub_neg_eq_add]

example : Smooth13 ![0.1, 0.2, 0] ∧ Smooth13 ![-1, 0, 0] := by
  refine ⟨Or.inr (Or.inr ⟨?_, ?_⟩), Or.inl ⟨?_, ?_⟩⟩ <;> norm_num [abs_of_pos]

end Verif.Source
