import Verif.EulerFluxesProps
import Mathlib.Analysis.SpecificLimits.Basic
import Mathlib.Analysis.SpecificLimits.Normed

/-!
# Entropy conservation of the Ismail–Roe flux (C55)
-/

namespace Verif.EulerFluxes

variable {d : ℕ}

/-! ## Accuracy of the logarithmic mean -/

/-- Outside the series branch `logavg` is the exact logarithmic mean. -/
theorem logavg_exact (a b : ℝ) (ha : 0 < a) (hb : 0 < b)
    (h : 1 / 1000 ≤ ((a - b) / (a + b)) ^ 2) :
    (a - b) / logavg a b = Real.log a - Real.log b := by
  have hab : a + b ≠ 0 := by positivity
  have hf : (a / b - 1) / (a / b + 1) = (a - b) / (a + b) := by field_simp
  have hne : a - b ≠ 0 := by
    intro h0; rw [h0] at h; norm_num at h
  unfold logavg
  simp only [hf]
  have hu : ¬ ((a - b) / (a + b) * ((a - b) / (a + b)) < 1 / 1000) := by
    rw [← pow_two]; linarith
  rw [if_neg hu, Real.log_div ha.ne' hb.ne']
  have hab' : a ≠ b := fun e => hne (by rw [e]; ring)
  have hlog : Real.log a - Real.log b ≠ 0 := by
    intro h0
    exact hab' (Real.log_injOn_pos (Set.mem_Ioi.mpr ha) (Set.mem_Ioi.mpr hb) (by linarith))
  field_simp

/-- In every branch, `(a - b)/logavg a b` differs from `log a - log b` by at most `1e-17`. -/
theorem logavg_defect (a b : ℝ) (ha : 0 < a) (hb : 0 < b) :
    |(Real.log a - Real.log b) - (a - b) / logavg a b| ≤ 1 / 10 ^ 17 := by
  by_cases hbr : 1 / 1000 ≤ ((a - b) / (a + b)) ^ 2
  · rw [logavg_exact a b ha hb hbr]; norm_num
  have hab : 0 < a + b := by positivity
  set f := (a - b) / (a + b) with hfdef
  have hfu : f ^ 2 < 1 / 1000 := by linarith [not_le.mp hbr]
  have hf : (a / b - 1) / (a / b + 1) = f := by rw [hfdef]; field_simp
  set u := f ^ 2 with hu
  have hu0 : 0 ≤ u := sq_nonneg f
  have hfabs : |f| < 1 / 31 := by
    apply abs_lt_of_sq_lt_sq _ (by norm_num)
    calc f ^ 2 < 1 / 1000 := hfu
      _ < (1 / 31) ^ 2 := by norm_num
  have hf1 : |f| < 1 := by linarith
  -- the quotient is the truncated series
  have hq : (a - b) / logavg a b
      = 2 * f * (1 + u * (1 / 3 + u * (1 / 5 + u * (1 / 7 + u / 9)))) := by
    unfold logavg
    simp only [hf]
    rw [if_pos (by rw [← pow_two]; exact hfu), ← pow_two, ← hu]
    have hF : 0 < 1 + u * (1 / 3 + u * (1 / 5 + u * (1 / 7 + u / 9))) := by positivity
    rw [hfdef]; field_simp
  have hlog : Real.log a - Real.log b = Real.log (1 + f) - Real.log (1 - f) := by
    have h1 : 1 + f = 2 * a / (a + b) := by rw [hfdef]; field_simp; ring
    have h2 : 1 - f = 2 * b / (a + b) := by rw [hfdef]; field_simp; ring
    rw [h1, h2, Real.log_div (by positivity) hab.ne', Real.log_div (by positivity) hab.ne',
      Real.log_mul two_ne_zero ha.ne', Real.log_mul two_ne_zero hb.ne']
    ring
  have hs := Real.hasSum_log_sub_log_of_abs_lt_one hf1
  rw [← hlog] at hs
  have ht := (hasSum_nat_add_iff' 5).mpr hs
  have hfin : (∑ i ∈ Finset.range 5, (2 : ℝ) * (1 / (2 * (i : ℝ) + 1)) * f ^ (2 * i + 1))
      = (a - b) / logavg a b := by
    rw [hq, hu]
    simp only [Finset.sum_range_succ, Finset.sum_range_zero]
    push_cast
    ring
  rw [hfin] at ht
  -- geometric bound on the tail
  have hg := (hasSum_geometric_of_lt_one hu0 (by linarith : u < 1)).mul_left
    (2 / 11 * |f| * u ^ 5)
  have hb : ∀ k : ℕ, |(2 : ℝ) * (1 / (2 * ((k + 5 : ℕ) : ℝ) + 1)) * f ^ (2 * (k + 5) + 1)|
      ≤ 2 / 11 * |f| * u ^ 5 * u ^ k := by
    intro k
    have e : f ^ (2 * (k + 5) + 1) = f * u ^ 5 * u ^ k := by
      rw [hu, ← pow_mul, ← pow_mul]; ring
    rw [e, abs_mul, abs_mul (f * u ^ 5), abs_mul f, abs_of_nonneg (pow_nonneg hu0 5),
      abs_of_nonneg (pow_nonneg hu0 k)]
    have h1 : |(2 : ℝ) * (1 / (2 * ((k + 5 : ℕ) : ℝ) + 1))| ≤ 2 / 11 := by
      rw [abs_of_nonneg (by positivity)]
      push_cast
      have hk : (0 : ℝ) ≤ k := Nat.cast_nonneg k
      rw [mul_one_div, div_le_div_iff₀ (by positivity) (by norm_num)]
      linarith
    have h2 : 0 ≤ |f| * u ^ 5 * u ^ k := by positivity
    calc _ ≤ 2 / 11 * (|f| * u ^ 5 * u ^ k) := mul_le_mul_of_nonneg_right h1 h2
      _ = _ := by ring
  have up := hasSum_le (fun k => (abs_le.mp (hb k)).2) ht hg
  have lo := hasSum_le (fun k => (abs_le.mp (hb k)).1) hg.neg ht
  have htot : 2 / 11 * |f| * u ^ 5 * (1 - u)⁻¹ ≤ 1 / 10 ^ 17 := by
    have h5 : u ^ 5 ≤ (1 / 1000) ^ 5 := pow_le_pow_left₀ hu0 hfu.le 5
    have hinv : (1 - u)⁻¹ ≤ 1000 / 999 := by
      rw [inv_le_comm₀ (by linarith) (by norm_num)]; norm_num; linarith
    have hfn := abs_nonneg f
    have hin : 0 ≤ (1 - u)⁻¹ := inv_nonneg.mpr (by linarith)
    calc 2 / 11 * |f| * u ^ 5 * (1 - u)⁻¹
        ≤ 2 / 11 * (1 / 31) * (1 / 1000) ^ 5 * (1000 / 999) := by gcongr
      _ ≤ 1 / 10 ^ 17 := by norm_num
  rw [abs_le]
  constructor <;> linarith

/-! ## The entropy identity -/

/-- Entropy potential of the Euler equations in direction `n`: `ψ = m·n`. -/
def psi (n : Fin d → ℝ) (q : State d) : ℝ := ∑ i, q.mom i * n i

/-- Inner product of two `dim+2` arrays. -/
def inner2 (a b : State d) : ℝ := a.rho * b.rho + (∑ i, a.mom i * b.mom i) + a.ener * b.ener

/-- Entropy production of a two-point flux `f` across the pair: `(w_L - w_R)·f - (ψ_L - ψ_R)`. -/
noncomputable def production (n : Fin d → ℝ) (f qL qR : State d) : ℝ :=
  inner2 (calcEntropyVars qL) f - inner2 (calcEntropyVars qR) f - (psi n qL - psi n qR)

theorem entVars_z (q : State d) (h : Admissible q) :
    calcEntropyVars q =
      ⟨7 / 2 + Real.log (zCons q).ener + 6 * Real.log (zCons q).rho
          - 1 / 2 * dot (zCons q).mom (zCons q).mom,
        (zCons q).rho • (zCons q).mom, -(zCons q).rho ^ 2⟩ := by
  have hr := h.rho_pos; have hp := h.press_pos
  obtain ⟨e1, e2, e3⟩ := zCons_prod q h
  have h1 := zCons_rho_pos h; have h3 := zCons_ener_pos h
  have hm : (zCons q).mom = ((zCons q).rho / q.rho) • q.mom := by
    funext i; show (zCons q).rho * q.mom i / q.rho = _
    simp only [Pi.smul_apply, smul_eq_mul]; ring
  rw [entVars_eq q hr.ne' hp.ne', log_s hr hp]
  have hl : Real.log (pressure q) = Real.log (zCons q).ener - Real.log (zCons q).rho := by
    rw [← e2, Real.log_div h3.ne' h1.ne']
  have hlr : Real.log q.rho = Real.log (zCons q).rho + Real.log (zCons q).ener := by
    rw [← e1, Real.log_mul h1.ne' h3.ne']
  ext i
  · simp only [hm, dot_smul_left, dot_smul_right, hl, hlr]
    have : (zCons q).rho / q.rho * ((zCons q).rho / q.rho * dot q.mom q.mom)
        = dot q.mom q.mom / (q.rho * pressure q) := by
      have : (zCons q).rho / q.rho * ((zCons q).rho / q.rho * dot q.mom q.mom)
        = (zCons q).rho ^ 2 / q.rho ^ 2 * dot q.mom q.mom := by ring
      rw [this, e3]; field_simp
    rw [this]; ring
  · simp only [hm, Pi.smul_apply, smul_eq_mul]
    have : (zCons q).rho * ((zCons q).rho / q.rho * q.mom i)
        = (zCons q).rho ^ 2 / q.rho * q.mom i := by ring
    rw [this, e3]; field_simp
  · simp only; rw [e3]; ring

theorem psi_z (n : Fin d → ℝ) (q : State d) (h : Admissible q) :
    psi n q = (zCons q).ener * dot (zCons q).mom n := by
  obtain ⟨e1, e2, e3⟩ := zCons_prod q h
  have hr := h.rho_pos
  have hm : (zCons q).mom = ((zCons q).rho / q.rho) • q.mom := by
    funext i; show (zCons q).rho * q.mom i / q.rho = _
    simp only [Pi.smul_apply, smul_eq_mul]; ring
  rw [hm, dot_smul_left]
  have : (zCons q).ener * ((zCons q).rho / q.rho * dot q.mom n)
      = (zCons q).rho * (zCons q).ener / q.rho * dot q.mom n := by ring
  rw [this, e1, div_self hr.ne', one_mul]; rfl

/-- Exact value of the entropy production of the face flux for all admissible pairs: the mass flux
times the error of the logarithmic means. -/
theorem C55_production_identity (n : Fin d → ℝ) (qL qR : State d) (hL : Admissible qL)
    (hR : Admissible qR) :
    production n (calcIsmailRoeFaceFlux n qL qR) qL qR =
      (calcIsmailRoeFaceFlux n qL qR).rho *
        ((Real.log (zCons qL).ener - Real.log (zCons qR).ener
            - ((zCons qL).ener - (zCons qR).ener) / logavg (zCons qL).ener (zCons qR).ener)
         + 6 * (Real.log (zCons qL).rho - Real.log (zCons qR).rho
            - ((zCons qL).rho - (zCons qR).rho) / logavg (zCons qL).rho (zCons qR).rho)) := by
  have i2 : ∀ a b : State d, inner2 a b = a.rho * b.rho + dot a.mom b.mom + a.ener * b.ener :=
    fun a b => rfl
  unfold production
  rw [psi_z n qL hL, psi_z n qR hR, i2, i2, entVars_z qL hL, entVars_z qR hR]
  unfold calcIsmailRoeFaceFlux
  simp only [faceU_eq, irFaceZ]
  have hzL := zCons_rho_pos hL; have hzR := zCons_rho_pos hR
  have heL := zCons_ener_pos hL; have heR := zCons_ener_pos hR
  have hL5 := logavg_pos _ _ heL heR
  have hL0 := logavg_pos _ _ hzL hzR
  have hU : uHat (zCons qL) (zCons qR)
      = (1 / ((zCons qL).rho + (zCons qR).rho)) • ((zCons qL).mom + (zCons qR).mom) := by
    funext i; simp only [uHat, Pi.smul_apply, Pi.add_apply, smul_eq_mul]; ring
  have hflux : ∀ c e : ℝ, (fun i => uHat (zCons qL) (zCons qR) i * c + e * n i)
      = c • uHat (zCons qL) (zCons qR) + e • n := by
    intro c e; funext i; simp only [Pi.smul_apply, Pi.add_apply, smul_eq_mul]; ring
  have hs : (∑ i, 1 / 2 * uHat (zCons qL) (zCons qR) i * uHat (zCons qL) (zCons qR) i)
      = 1 / 2 * dot (uHat (zCons qL) (zCons qR)) (uHat (zCons qL) (zCons qR)) := by
    unfold dot; rw [Finset.mul_sum]; exact Finset.sum_congr rfl fun i _ => by ring
  have hh : hHat (zCons qL) (zCons qR) = gamma * p2Hat (zCons qL) (zCons qR)
      / (rhoHat (zCons qL) (zCons qR) * gami)
      + 1 / 2 * dot (uHat (zCons qL) (zCons qR)) (uHat (zCons qL) (zCons qR)) := by
    unfold hHat; rw [hs]
  rw [hflux, hh, hU]
  simp only [dot_add_left, dot_add_right, dot_smul_left, dot_smul_right]
  unfold p2Hat rhoHat p1Hat
  rw [gamma_eq, gami_eq]
  rw [dot_comm (zCons qR).mom (zCons qL).mom]
  generalize Real.log (zCons qL).ener = l1
  generalize Real.log (zCons qR).ener = l2
  generalize Real.log (zCons qL).rho = l3
  generalize Real.log (zCons qR).rho = l4
  generalize logavg (zCons qL).ener (zCons qR).ener = L5 at hL5 ⊢
  generalize logavg (zCons qL).rho (zCons qR).rho = L0 at hL0 ⊢
  generalize dot (zCons qL).mom (zCons qL).mom = AA
  generalize dot (zCons qL).mom (zCons qR).mom = AB
  generalize dot (zCons qR).mom (zCons qR).mom = BB
  generalize dot (zCons qL).mom n = An
  generalize dot (zCons qR).mom n = Bn
  generalize (zCons qL).rho = a at hzL ⊢
  generalize (zCons qR).rho = b at hzR ⊢
  generalize (zCons qL).ener = c
  generalize (zCons qR).ener = e
  have hab : a + b ≠ 0 := by positivity
  field_simp
  ring

/-- With both logarithmic means in their exact branch the flux is exactly entropy conservative. -/
theorem C55_entropy_conservative_exact (n : Fin d → ℝ) (qL qR : State d) (hL : Admissible qL)
    (hR : Admissible qR)
    (h5 : 1 / 1000 ≤ ((√(qL.rho * specP qL) - √(qR.rho * specP qR))
        / (√(qL.rho * specP qL) + √(qR.rho * specP qR))) ^ 2)
    (h0 : 1 / 1000 ≤ ((√(qL.rho / specP qL) - √(qR.rho / specP qR))
        / (√(qL.rho / specP qL) + √(qR.rho / specP qR))) ^ 2) :
    production n (calcIsmailRoeFaceFlux n qL qR) qL qR = 0 := by
  rw [C55_production_identity n qL qR hL hR]
  simp only [← pressure_spec] at h5 h0
  rw [logavg_exact _ _ (zCons_ener_pos hL) (zCons_ener_pos hR) h5,
    logavg_exact _ _ (zCons_rho_pos hL) (zCons_rho_pos hR) h0]
  ring

/-- For every admissible pair, whatever branches are taken, the entropy production is at most
`1e-16` times the mass flux. -/
theorem C55_entropy_conservative (n : Fin d → ℝ) (qL qR : State d) (hL : Admissible qL)
    (hR : Admissible qR) :
    |production n (calcIsmailRoeFaceFlux n qL qR) qL qR|
      ≤ 1 / 10 ^ 16 * |(calcIsmailRoeFaceFlux n qL qR).rho| := by
  rw [C55_production_identity n qL qR hL hR, abs_mul, mul_comm (1 / 10 ^ 16)]
  apply mul_le_mul_of_nonneg_left _ (abs_nonneg _)
  have h1 := logavg_defect _ _ (zCons_ener_pos hL) (zCons_ener_pos hR)
  have h2 := logavg_defect _ _ (zCons_rho_pos hL) (zCons_rho_pos hR)
  rw [abs_le] at h1 h2 ⊢
  constructor <;> linarith [h1.1, h1.2, h2.1, h2.2]

/-- Coordinate-direction version. -/
theorem C55_entropy_conservative_coord (di : Fin d) (qL qR : State d) (hL : Admissible qL)
    (hR : Admissible qR) :
    |production (fun i => if i = di then 1 else 0) (calcIsmailRoeFlux di qL qR) qL qR|
      ≤ 1 / 10 ^ 16 * |(calcIsmailRoeFlux di qL qR).rho| := by
  rw [C54_coord_eq_face]
  exact C55_entropy_conservative _ _ _ hL hR

/-- Entropy-variable version. -/
theorem C55_entropy_conservative_entvars (n : Fin d → ℝ) (wL wR : State d) (hL : wL.ener < 0)
    (hR : wR.ener < 0) :
    |inner2 wL (calcIsmailRoeFaceFluxUsingEntVars n wL wR)
       - inner2 wR (calcIsmailRoeFaceFluxUsingEntVars n wL wR)
       - (psi n (calcConservativeVars wL) - psi n (calcConservativeVars wR))|
      ≤ 1 / 10 ^ 16 * |(calcIsmailRoeFaceFluxUsingEntVars n wL wR).rho| := by
  have haL := C53_cons_admissible wL hL
  have haR := C53_cons_admissible wR hR
  have := C55_entropy_conservative n _ _ haL haR
  unfold production at this
  rw [← C54_entvars_face n _ _ haL haR, C53_roundtrip_ent wL hL, C53_roundtrip_ent wR hR] at this
  exact this

/-- Hypotheses of the exact theorem are met by states with well separated `√(ρp)` and `√(ρ/p)`. -/
example : ∃ qL qR : State 1, Admissible qL ∧ Admissible qR ∧
    1 / 1000 ≤ ((√(qL.rho * specP qL) - √(qR.rho * specP qR))
        / (√(qL.rho * specP qL) + √(qR.rho * specP qR))) ^ 2 ∧
    1 / 1000 ≤ ((√(qL.rho / specP qL) - √(qR.rho / specP qR))
        / (√(qL.rho / specP qL) + √(qR.rho / specP qR))) ^ 2 := by
  refine ⟨⟨1, ![0], 5 / 2⟩, ⟨8, ![0], 5⟩, ?_, ?_, ?_, ?_⟩
  · constructor <;> norm_num
  · constructor <;> norm_num
  · have e1 : specP (⟨1, ![0], 5 / 2⟩ : State 1) = 1 := by norm_num [specP]
    have e2 : specP (⟨8, ![0], 5⟩ : State 1) = 2 := by norm_num [specP]
    rw [e1, e2]
    have : √(8 * 2 : ℝ) = 4 := by rw [show (8 * 2 : ℝ) = 4 ^ 2 by norm_num]; exact Real.sqrt_sq (by norm_num)
    simp only [this, mul_one, Real.sqrt_one]; norm_num
  · have e1 : specP (⟨1, ![0], 5 / 2⟩ : State 1) = 1 := by norm_num [specP]
    have e2 : specP (⟨8, ![0], 5⟩ : State 1) = 2 := by norm_num [specP]
    rw [e1, e2]
    have : √(8 / 2 : ℝ) = 2 := by rw [show (8 / 2 : ℝ) = 2 ^ 2 by norm_num]; exact Real.sqrt_sq (by norm_num)
    simp only [this, div_one, Real.sqrt_one]; norm_num

end Verif.EulerFluxes
