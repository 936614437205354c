import Verif.BhData
import Verif.MatCoeffProps
import Verif.CurlCurlProps
import Mathlib.Analysis.Calculus.Deriv.Add
import Mathlib.Analysis.Calculus.Deriv.Mul
import Mathlib.Analysis.Calculus.MeanValue
import Mathlib.Analysis.Real.Pi.Bounds
import Mathlib.Analysis.Complex.ExponentialBounds
import Mathlib.Tactic.Linarith
import Mathlib.Tactic.Ring
import Mathlib.Tactic.FieldSimp
import Mathlib.Tactic.NormNum
import Mathlib.Tactic.Positivity
import Mathlib.Tactic.IntervalCases

/-!
# C208: the magnetisation curves of the shipped steels, and of any spline data
-/

set_option linter.unusedSimpArgs false

namespace Verif.BSpline

open Verif.MatCoeffs Filter Topology

/-! ### Polynomial pieces -/

/-- Value of a polynomial given by its coefficients. -/
def ev {K : Type*} [Field K] (p : List ℚ) (x : K) : K :=
  match p with
  | [] => 0
  | a :: p => (a : K) + x * ev p x

/-- Sum. -/
def padd : List ℚ → List ℚ → List ℚ
  | [], q => q
  | p, [] => p
  | a :: p, b :: q => (a + b) :: padd p q

/-- Product with a number. -/
def psmul (a : ℚ) (p : List ℚ) : List ℚ := p.map (a * ·)

/-- Product with `a + b x`. -/
def plin (a b : ℚ) (p : List ℚ) : List ℚ := padd (psmul a p) (0 :: psmul b p)

/-- Derivative, coefficients from index `i` on. -/
def pderAux (i : ℚ) : List ℚ → List ℚ
  | [] => []
  | a :: p => i * a :: pderAux (i + 1) p

/-- Derivative. -/
def pder (p : List ℚ) : List ℚ := pderAux 1 p.tail

/-- De Boor's algorithm on polynomials. -/
def dP (c t : List ℚ) (p : ℕ) : ℕ → ℕ → List ℚ
  | 0, i => [c.getD i 0]
  | r + 1, i =>
    let w := t.getD (i + p - r) 0 - t.getD i 0
    padd (plin (1 + t.getD i 0 / w) (-1 / w) (dP c t p r (i - 1)))
      (plin (-t.getD i 0 / w) (1 / w) (dP c t p r i))

section
variable {K : Type*} [Field K] [CharZero K]

theorem ev_padd (p q : List ℚ) (x : K) : ev (padd p q) x = ev p x + ev q x := by
  induction p generalizing q with
  | nil => simp [padd, ev]
  | cons a p ih =>
    cases q with
    | nil => simp [padd, ev]
    | cons b q => simp only [padd, ev, ih]; push_cast; ring

theorem ev_psmul (a : ℚ) (p : List ℚ) (x : K) : ev (psmul a p) x = a * ev p x := by
  induction p with
  | nil => simp [psmul, ev]
  | cons b p ih =>
    have : psmul a (b :: p) = (a * b) :: psmul a p := rfl
    rw [this]
    simp only [ev, ih]; push_cast; ring

theorem ev_plin (a b : ℚ) (p : List ℚ) (x : K) : ev (plin a b p) x = (a + b * x) * ev p x := by
  rw [plin, ev_padd, ev_psmul, ev, ev_psmul]; push_cast; ring

theorem ev_dP (c t : List ℚ) (p : ℕ) (x : K) (r i : ℕ) :
    ev (dP c t p r i) x = deBoor (fn K c) (fn K t) p x r i := by
  induction r generalizing i with
  | zero => simp [dP, ev, deBoor, fn]
  | succ r ih =>
    simp only [dP, deBoor]
    rw [ev_padd, ev_plin, ev_plin, ih, ih]
    unfold fn
    push_cast
    ring

end

theorem ev_hasDeriv_aux (p : List ℚ) (i : ℚ) (x : ℝ) :
    ev (pderAux (i + 1) p) x = ev (pderAux i p) x + ev p x := by
  induction p generalizing i with
  | nil => simp [pderAux, ev]
  | cons a p ih => simp only [pderAux, ev, ih]; push_cast; ring

theorem ev_hasDeriv (p : List ℚ) (x : ℝ) : HasDerivAt (fun y : ℝ => ev p y) (ev (pder p) x) x := by
  induction p with
  | nil => simpa [ev, pder, pderAux] using hasDerivAt_const x (0 : ℝ)
  | cons a p ih =>
    have h := ((hasDerivAt_id' x).fun_mul ih).const_add (a : ℝ)
    refine h.congr_deriv ?_
    have : pder (a :: p) = pderAux 1 p := rfl
    rw [this]
    cases p with
    | nil => simp [ev, pder, pderAux]
    | cons b p =>
      have e : pder (b :: p) = pderAux 1 p := rfl
      have e2 : pderAux 1 (b :: p) = 1 * b :: pderAux (1 + 1) p := rfl
      rw [e, e2]
      simp only [ev, ev_hasDeriv_aux]
      push_cast
      ring

/-! ### Piecewise -/

theorem glue {u g u' g' : ℝ → ℝ} {b : ℝ} (hu : ∀ x, HasDerivAt u (u' x) x)
    (hg : ∀ x, HasDerivAt g (g' x) x) (h0 : u b = g b) (h1 : u' b = g' b) (x : ℝ) :
    HasDerivAt (fun y => if y < b then u y else g y) (if x < b then u' x else g' x) x := by
  rcases lt_trichotomy x b with h | h | h
  · rw [if_pos h]
    exact (hu x).congr_of_eventuallyEq ((eventually_lt_nhds h).mono fun y hy => if_pos hy)
  · subst h
    rw [if_neg (lt_irrefl _)]
    have hl : HasDerivWithinAt (fun y => if y < x then u y else g y) (g' x) (Set.Iic x) x := by
      have := (hu x).hasDerivWithinAt (s := Set.Iic x)
      rw [h1] at this
      refine this.congr (fun y hy => ?_) ?_
      · rcases lt_or_eq_of_le (Set.mem_Iic.1 hy) with h | h
        · exact if_pos h
        · subst h; rw [if_neg (lt_irrefl _), h0]
      · rw [if_neg (lt_irrefl _), h0]
    have hr : HasDerivWithinAt (fun y => if y < x then u y else g y) (g' x) (Set.Ici x) x := by
      refine ((hg x).hasDerivWithinAt (s := Set.Ici x)).congr (fun y hy => ?_) ?_
      · exact if_neg (not_lt.2 (Set.mem_Ici.1 hy))
      · exact if_neg (lt_irrefl _)
    have := hl.union hr
    rwa [Set.Iic_union_Ici, hasDerivWithinAt_univ] at this
  · rw [if_neg (not_lt.2 h.le)]
    exact (hg x).congr_of_eventuallyEq ((eventually_gt_nhds h).mono fun y hy => if_neg (not_lt.2 hy.le))

/-- The pieces fit together once differentiably, and the pieces of the second spline are the
derivatives of those of the first (spans from `k` on, `more` following). -/
def fits (s s' : Spline) (k : ℕ) : ℕ → Bool
  | 0 => pder (dP s.c s.t s.p s.p k) == dP s'.c s'.t s'.p s'.p (k - 1)
  | more + 1 => (pder (dP s.c s.t s.p s.p k) == dP s'.c s'.t s'.p s'.p (k - 1)) &&
      (s'.t.getD k 0 == s.t.getD (k + 1) 0) && decide (0 < k) &&
      (ev (dP s.c s.t s.p s.p k) (s.t.getD (k + 1) 0) ==
        ev (dP s.c s.t s.p s.p (k + 1)) (s.t.getD (k + 1) 0)) &&
      (ev (dP s'.c s'.t s'.p s'.p (k - 1)) (s.t.getD (k + 1) 0) ==
        ev (dP s'.c s'.t s'.p s'.p k) (s.t.getD (k + 1) 0)) &&
      decide (s.t.getD (k + 1) 0 < s.t.getD (k + 2) 0) && fits s s' (k + 1) more

theorem ev_cast (p : List ℚ) (x : ℚ) : ((ev p x : ℚ) : ℝ) = ev p (x : ℝ) := by
  induction p with
  | nil => simp [ev]
  | cons a p ih => simp only [ev]; push_cast; rw [ih]

/-- In the first span the value is that of the first piece. -/
theorem evalFrom_first {K : Type*} [Field K] [LinearOrder K] (c t : ℕ → K) (p : ℕ) (x : K) (k more : ℕ)
    (h : x < t (k + 1)) : evalFrom c t p x k more = deBoor c t p x p k := by
  cases more with
  | zero => rfl
  | succ n => exact if_pos h

theorem fits_first {s s' : Spline} {k more : ℕ} (h : fits s s' k more = true) :
    pder (dP s.c s.t s.p s.p k) = dP s'.c s'.t s'.p s'.p (k - 1) := by
  cases more with
  | zero => simpa [fits] using h
  | succ n => simp only [fits, Bool.and_eq_true, beq_iff_eq] at h; exact h.1.1.1.1.1.1

theorem fits_hasDeriv (s s' : Spline) (more k : ℕ) (h : fits s s' k more = true) (x : ℝ) :
    HasDerivAt (fun y : ℝ => evalFrom (fn ℝ s.c) (fn ℝ s.t) s.p y k more)
      (evalFrom (fn ℝ s'.c) (fn ℝ s'.t) s'.p x (k - 1) more) x := by
  induction more generalizing k x with
  | zero =>
    have h1 := fits_first h
    have := ev_hasDeriv (dP s.c s.t s.p s.p k) x
    rw [h1] at this
    simp only [ev_dP] at this
    exact this
  | succ n ih =>
    have h1 := fits_first h
    simp only [fits, Bool.and_eq_true, beq_iff_eq, decide_eq_true_eq] at h
    obtain ⟨⟨⟨⟨⟨⟨_, ht⟩, hk⟩, hv⟩, hd⟩, hlt⟩, hrec⟩ := h
    have ih' := ih (k + 1) hrec
    have hkk : k + 1 - 1 = k := by omega
    have hk' : k - 1 + 1 = k := by omega
    rw [hkk] at ih'
    have hu : ∀ y : ℝ, HasDerivAt (fun z : ℝ => deBoor (fn ℝ s.c) (fn ℝ s.t) s.p z s.p k)
        (deBoor (fn ℝ s'.c) (fn ℝ s'.t) s'.p y s'.p (k - 1)) y := by
      intro y
      have := ev_hasDeriv (dP s.c s.t s.p s.p k) y
      rw [h1] at this
      simp only [ev_dP] at this
      exact this
    have tb : fn ℝ s'.t (k - 1 + 1) = fn ℝ s.t (k + 1) := by unfold fn; rw [hk', ht]
    have lt' : fn ℝ s.t (k + 1) < fn ℝ s.t (k + 1 + 1) := by
      unfold fn; exact_mod_cast hlt
    have g0 : deBoor (fn ℝ s.c) (fn ℝ s.t) s.p (fn ℝ s.t (k + 1)) s.p k =
        evalFrom (fn ℝ s.c) (fn ℝ s.t) s.p (fn ℝ s.t (k + 1)) (k + 1) n := by
      rw [evalFrom_first _ _ _ _ _ _ lt', ← ev_dP, ← ev_dP]
      unfold fn
      rw [← ev_cast, ← ev_cast, hv]
    have g1 : deBoor (fn ℝ s'.c) (fn ℝ s'.t) s'.p (fn ℝ s.t (k + 1)) s'.p (k - 1) =
        evalFrom (fn ℝ s'.c) (fn ℝ s'.t) s'.p (fn ℝ s.t (k + 1)) k n := by
      have hd' : deBoor (fn ℝ s'.c) (fn ℝ s'.t) s'.p (fn ℝ s.t (k + 1)) s'.p (k - 1) =
          deBoor (fn ℝ s'.c) (fn ℝ s'.t) s'.p (fn ℝ s.t (k + 1)) s'.p k := by
        rw [← ev_dP, ← ev_dP]
        unfold fn
        rw [← ev_cast, ← ev_cast, hd]
      cases n with
      | zero => exact hd'
      | succ n =>
        have : fn ℝ s'.t (k + 1) = fn ℝ s.t (k + 1 + 1) := by
          simp only [fits, Bool.and_eq_true, beq_iff_eq, decide_eq_true_eq] at hrec
          unfold fn
          rw [hrec.1.1.1.1.1.2]
        rw [evalFrom_first _ _ _ _ _ _ (by rw [this]; exact lt')]
        exact hd'
    have G := glue hu ih' g0 g1 x
    have e : evalFrom (fn ℝ s'.c) (fn ℝ s'.t) s'.p x (k - 1) (n + 1) =
        if x < fn ℝ s.t (k + 1) then deBoor (fn ℝ s'.c) (fn ℝ s'.t) s'.p x s'.p (k - 1)
        else evalFrom (fn ℝ s'.c) (fn ℝ s'.t) s'.p x k n := by
      simp only [evalFrom]
      rw [tb, hk']
    rw [e]
    exact G

/-- What holds of every piece on its closed span holds of the spline between its knots. -/
theorem evalFrom_pieces (s : Spline) (Q : ℝ → ℝ → Prop) (more k : ℕ) (x : ℝ) (h0 : fn ℝ s.t k ≤ x)
    (h1 : x ≤ fn ℝ s.t (k + more + 1))
    (h : ∀ j ≤ more, ∀ y, fn ℝ s.t (k + j) ≤ y → y ≤ fn ℝ s.t (k + j + 1) →
      Q y (ev (dP s.c s.t s.p s.p (k + j)) y)) :
    Q x (evalFrom (fn ℝ s.c) (fn ℝ s.t) s.p x k more) := by
  induction more generalizing k with
  | zero =>
    have := h 0 le_rfl x h0 h1
    rw [ev_dP] at this
    exact this
  | succ n ih =>
    simp only [evalFrom]
    split
    · rename_i hlt
      have := h 0 (by omega) x h0 hlt.le
      rw [ev_dP] at this
      exact this
    · rename_i hlt
      refine ih (k + 1) (not_lt.1 hlt) (by rwa [show k + 1 + n + 1 = k + (n + 1) + 1 by omega]) ?_
      intro j hj y hy0 hy1
      have := h (j + 1) (by omega) y (by rwa [show k + (j + 1) = k + 1 + j by omega])
        (by rwa [show k + (j + 1) + 1 = k + 1 + j + 1 by omega])
      rwa [show k + (j + 1) = k + 1 + j by omega] at this

/-! ### Sign of a polynomial on an interval -/

/-- `p (l + s)` as a polynomial in `s`. -/
def shift (l : ℚ) : List ℚ → List ℚ
  | [] => []
  | a :: p => padd [a] (plin l 1 (shift l p))

/-- A lower bound for the terms with negative coefficients on `[0, h]`. -/
def negPart (h : ℚ) : List ℚ → ℚ
  | [] => 0
  | a :: p => min a 0 + h * negPart h p

/-- Sound test for `0 < p` on `[l, r]`, by bisection. -/
def posOn : ℕ → List ℚ → ℚ → ℚ → Bool
  | d, p, l, r =>
    let q := shift l p
    decide (0 < q.headD 0 + (r - l) * negPart (r - l) q.tail) ||
      match d with
      | 0 => false
      | d + 1 => posOn d p l ((l + r) / 2) && posOn d p ((l + r) / 2) r

theorem ev_shift (l : ℚ) (p : List ℚ) (y : ℝ) : ev (shift l p) (y - l) = ev p y := by
  induction p with
  | nil => rfl
  | cons a p ih =>
    simp only [shift]
    rw [ev_padd, ev_plin, ih]
    simp [ev]

theorem negPart_nonpos {h : ℚ} (hh : 0 ≤ h) (p : List ℚ) : negPart h p ≤ 0 := by
  induction p with
  | nil => exact le_rfl
  | cons a p ih =>
    simp only [negPart]
    have := mul_nonpos_of_nonneg_of_nonpos hh ih
    have := min_le_right a 0
    linarith

theorem negPart_le {h : ℚ} (hh : 0 ≤ h) (p : List ℚ) (s : ℝ) (h0 : 0 ≤ s) (h1 : s ≤ h) :
    (negPart h p : ℝ) ≤ ev p s := by
  induction p with
  | nil => simp [negPart, ev]
  | cons a p ih =>
    simp only [negPart, ev]
    have n : (negPart h p : ℝ) ≤ 0 := by exact_mod_cast negPart_nonpos hh p
    have a1 : ((min a 0 : ℚ) : ℝ) ≤ a := by exact_mod_cast min_le_left a 0
    have a2 : (h : ℝ) * negPart h p ≤ s * negPart h p := mul_le_mul_of_nonpos_right h1 n
    have a3 : s * negPart h p ≤ s * ev p s := mul_le_mul_of_nonneg_left ih h0
    push_cast at a1 ⊢
    linarith

theorem posOn_sound (d : ℕ) (p : List ℚ) (l r : ℚ) (h : posOn d p l r = true) (y : ℝ) (hl : (l : ℝ) ≤ y)
    (hr : y ≤ r) : 0 < ev p y := by
  have base : ∀ l r : ℚ, (l : ℝ) ≤ y → y ≤ r →
      0 < (shift l p).headD 0 + (r - l) * negPart (r - l) (shift l p).tail → 0 < ev p y := by
    intro l r hl hr h
    have hh : (0 : ℚ) ≤ r - l := by
      have : (l : ℝ) ≤ r := hl.trans hr
      have : l ≤ r := by exact_mod_cast this
      linarith
    rw [← ev_shift l p y]
    set q := shift l p
    cases hq : q with
    | nil => rw [hq] at h; simp [negPart] at h
    | cons a q' =>
      rw [hq] at h
      simp only [List.headD_cons, List.tail_cons] at h
      have s0 : 0 ≤ y - l := by linarith
      have s1 : y - l ≤ ((r - l : ℚ) : ℝ) := by push_cast; linarith
      have n := negPart_le hh q' (y - l) s0 s1
      have n0 : (negPart (r - l) q' : ℝ) ≤ 0 := by exact_mod_cast negPart_nonpos hh q'
      have h' : (0 : ℝ) < a + (r - l) * negPart (r - l) q' := by exact_mod_cast h
      simp only [ev]
      have a2 : ((r - l : ℚ) : ℝ) * negPart (r - l) q' ≤ (y - l) * negPart (r - l) q' :=
        mul_le_mul_of_nonpos_right s1 n0
      have a3 : (y - l) * negPart (r - l) q' ≤ (y - l) * ev q' (y - l) :=
        mul_le_mul_of_nonneg_left n s0
      push_cast at a2 h'
      linarith
  induction d generalizing l r with
  | zero =>
    unfold posOn at h
    simp only [Bool.or_false, decide_eq_true_eq] at h
    exact base l r hl hr h
  | succ d ih =>
    unfold posOn at h
    simp only [Bool.or_eq_true, decide_eq_true_eq, Bool.and_eq_true] at h
    rcases h with h | ⟨h1, h2⟩
    · exact base l r hl hr h
    · rcases le_total y (((l + r) / 2 : ℚ) : ℝ) with hy | hy
      · exact ih l _ h1 hl hy
      · exact ih _ r h2 hy hr

/-! ### The shipped steel, `lognu` -/

/-- The spline of `log ν`. -/
def lnS : Spline := ⟨hiperco50LogNu.cps, hiperco50LogNu.knots, 2⟩

theorem lnS_mk : mk hiperco50LogNu = some lnS := by decide +kernel

theorem lnS_fits : fits lnS lnS.derive 2 8 = true := by decide +kernel

theorem lnS_slope : ∀ j ≤ 8, posOn 4 (padd [1] (0 :: dP lnS.derive.c lnS.derive.t 1 1 (1 + j)))
    (lnS.derive.t.getD (1 + j) 0) (lnS.derive.t.getD (1 + j + 1) 0) = true := by decide +kernel

theorem lnS_end : ev (dP lnS.c lnS.t 2 2 10) (7 / 2 : ℚ) = 16981 / 1250 := by decide +kernel

theorem lnS_last : ((hiperco50LogNu.knots.getLastD 0 : ℚ) : ℝ) = 7 / 2 := by
  have : hiperco50LogNu.knots.getLastD 0 = 7 / 2 := by decide +kernel
  rw [this]; norm_num

theorem lnS_deriv (b : ℝ) : HasDerivAt (fun y : ℝ => lnS.eval y) (lnS.derive.eval b) b :=
  fits_hasDeriv lnS lnS.derive 8 2 lnS_fits b

theorem lnS_mono (b : ℝ) (h0 : 0 ≤ b) (h1 : b ≤ 7 / 2) : 0 < 1 + b * lnS.derive.eval b := by
  have e0 : fn ℝ lnS.derive.t 1 = 0 := by
    have : lnS.derive.t.getD 1 0 = 0 := by decide +kernel
    unfold fn; rw [this]; norm_num
  have e1 : fn ℝ lnS.derive.t (1 + 8 + 1) = 7 / 2 := by
    have : lnS.derive.t.getD (1 + 8 + 1) 0 = 7 / 2 := by decide +kernel
    unfold fn; rw [this]; norm_num
  refine evalFrom_pieces lnS.derive (fun y v => 0 < 1 + y * v) 8 1 b (by rw [e0]; exact h0)
    (by rw [e1]; exact h1) ?_
  intro j hj y hy0 hy1
  have := posOn_sound 4 _ _ _ (lnS_slope j hj) y hy0 hy1
  rw [ev_padd] at this
  simp only [ev] at this
  push_cast at this
  have e : lnS.derive.p = 1 := rfl
  rw [e]
  linarith

theorem lnS_eval_end : lnS.eval (7 / 2 : ℝ) = 13.5848 := by
  have t (i : ℕ) (q : ℚ) (h : lnS.t.getD i 0 = q) (hq : q ≤ 7 / 2) : ¬ (7 / 2 : ℝ) < fn ℝ lnS.t i := by
    unfold fn; rw [h, not_lt]
    have : (q : ℝ) ≤ ((7 / 2 : ℚ) : ℝ) := by exact_mod_cast hq
    push_cast at this
    exact this
  have e : lnS.eval (7 / 2 : ℝ) = deBoor (fn ℝ lnS.c) (fn ℝ lnS.t) 2 (7 / 2) 2 10 := by
    have l : lnS.c.length - 1 - lnS.p = 8 := by decide +kernel
    have p2 : lnS.p = 2 := rfl
    unfold Spline.eval
    rw [l, p2]
    simp only [evalFrom]
    rw [if_neg (t 3 _ rfl (by decide +kernel)), if_neg (t 4 _ rfl (by decide +kernel)),
      if_neg (t 5 _ rfl (by decide +kernel)), if_neg (t 6 _ rfl (by decide +kernel)),
      if_neg (t 7 _ rfl (by decide +kernel)), if_neg (t 8 _ rfl (by decide +kernel)),
      if_neg (t 9 _ rfl (by decide +kernel)), if_neg (t 10 _ rfl (by decide +kernel))]
  rw [e, ← ev_dP]
  have c := ev_cast (dP lnS.c lnS.t 2 2 10) (7 / 2)
  rw [lnS_end] at c
  push_cast at c
  rw [← c]
  norm_num

/-- `exp 13.5848` is less than the reluctivity of vacuum, by less than 0.3 per cent. -/
theorem exp_end : Real.exp 13.5848 < nu0 ∧ 0.997 * nu0 < Real.exp 13.5848 := by
  have hpi1 := Real.pi_lt_d6
  have hpi2 := Real.pi_gt_d6
  have pos := Real.pi_pos
  have e : Real.exp 13.5848 = Real.exp 1 ^ 13 * Real.exp 0.5848 := by
    rw [← Real.exp_nat_mul, ← Real.exp_add]; norm_num
  have u := Real.exp_bound' (x := 0.5848) (by norm_num) (by norm_num) (n := 7) (by norm_num)
  have l := Real.sum_le_exp_of_nonneg (x := 0.5848) (by norm_num) 7
  norm_num [Finset.sum_range_succ, Nat.factorial] at u l
  have e1 := Real.exp_one_lt_d9
  have e2 := Real.exp_one_gt_d9
  have p1 : Real.exp 1 ^ 13 < 2.7182818286 ^ 13 := pow_lt_pow_left₀ e1 (Real.exp_pos _).le (by norm_num)
  have p2 : 2.7182818283 ^ 13 < Real.exp 1 ^ 13 := pow_lt_pow_left₀ e2 (by norm_num) (by norm_num)
  have q0 : 0 < Real.exp 0.5848 := Real.exp_pos _
  have hn : nu0 = 1 / (4e-7 * Real.pi) := rfl
  constructor
  · rw [e, hn, lt_div_iff₀ (by positivity)]
    have h1 : Real.exp 1 ^ 13 * Real.exp 0.5848 < 794500 := by
      calc Real.exp 1 ^ 13 * Real.exp 0.5848 < 2.7182818286 ^ 13 * Real.exp 0.5848 :=
            mul_lt_mul_of_pos_right p1 q0
        _ ≤ 2.7182818286 ^ 13 * 1.79475 := by
            apply mul_le_mul_of_nonneg_left _ (by norm_num); linarith
        _ < 794500 := by norm_num
    calc Real.exp 1 ^ 13 * Real.exp 0.5848 * (4e-7 * Real.pi) < 794500 * (4e-7 * Real.pi) :=
          mul_lt_mul_of_pos_right h1 (by positivity)
      _ < 1 := by nlinarith
  · rw [e, hn, ← mul_div_assoc, mul_one, div_lt_iff₀ (by positivity)]
    have h1 : 793900 < Real.exp 1 ^ 13 * Real.exp 0.5848 := by
      calc (793900 : ℝ) < 2.7182818283 ^ 13 * 1.7946 := by norm_num
        _ ≤ 2.7182818283 ^ 13 * Real.exp 0.5848 := by
            apply mul_le_mul_of_nonneg_left _ (by norm_num); linarith
        _ < Real.exp 1 ^ 13 * Real.exp 0.5848 := mul_lt_mul_of_pos_right p2 q0
    calc (0.997 : ℝ) < 793900 * (4e-7 * Real.pi) := by nlinarith
      _ < Real.exp 1 ^ 13 * Real.exp 0.5848 * (4e-7 * Real.pi) :=
          mul_lt_mul_of_pos_right h1 (by positivity)

/-- C208.  The `lognu` coefficient of the shipped steel (`hiperco50`) can be built; its reluctivity is
positive, the field strength `ν(B) B` does not decrease with `B ≥ 0` on the whole half line, the
returned derivative is the derivative everywhere but at the last knot `3.5`, and the differential
reluctivity `ν + B ν'` is positive. -/
theorem C208_hiperco50_lognu : ∃ c, logNuOf hiperco50LogNu = some c ∧ c.bmax = 7 / 2 ∧
    Verif.Diffusion.MonotoneFlux c.eval ∧ (∀ b, 0 < c.eval b) ∧
    (∀ b, 0 ≤ b → 0 < c.eval b + b * c.d b) ∧ (∀ b, b ≠ c.bmax → HasDerivAt c.eval (c.d b) b) := by
  refine ⟨_, by rw [logNuOf, lnS_mk]; rfl, lnS_last, ?_, fun b => (C143_lognu_positive _ b).1, ?_, ?_⟩
  · refine C143_lognu_monotone_partial _ ?_ (fun b _ _ => lnS_deriv b) (fun b h0 h1 => ?_) ?_
    · simp only [lnS_last]; norm_num
    · simp only [lnS_last] at h1
      exact (lnS_mono b h0 h1).le
    · simp only [lnS_last]
      rw [lnS_eval_end]
      exact exp_end.1.le
  · intro b hb
    simp only [LogNu.eval, LogNu.d, lnS_last]
    split
    · rename_i h
      have := lnS_mono b hb h
      have e : Real.exp (lnS.eval b) + b * (Real.exp (lnS.eval b) * lnS.derive.eval b) =
          Real.exp (lnS.eval b) * (1 + b * lnS.derive.eval b) := by ring
      rw [e]
      exact mul_pos (Real.exp_pos _) this
    · rw [mul_zero, add_zero]; exact nu0_pos
  · intro b hb
    rcases lt_or_gt_of_ne hb with h | h
    · have hn : ∀ᶠ y in 𝓝 b, y ≤ ((hiperco50LogNu.knots.getLastD 0 : ℚ) : ℝ) :=
        (eventually_lt_nhds h).mono fun _ => le_of_lt
      refine ((lnS_deriv b).exp.congr_of_eventuallyEq (hn.mono fun y hy => ?_)).congr_deriv ?_
      · simp only [LogNu.eval]; rw [if_pos hy]
      · simp only [LogNu.d]; rw [if_pos h.le]
    · have hn : ∀ᶠ y in 𝓝 b, ¬ y ≤ ((hiperco50LogNu.knots.getLastD 0 : ℚ) : ℝ) :=
        (eventually_gt_nhds h).mono fun _ => not_le.2
      refine ((hasDerivAt_const b nu0).congr_of_eventuallyEq (hn.mono fun y hy => ?_)).congr_deriv ?_
      · simp only [LogNu.eval]; rw [if_neg hy]
      · simp only [LogNu.d]; rw [if_neg (not_le.2 h)]

/-- C208 (violation).  The shipped `lognu` curve has a jump at its last knot: the fit ends strictly
below the reluctivity of vacuum used beyond it (by less than 0.3 per cent). -/
theorem C208_lognu_continuous_false : ∃ c, logNuOf hiperco50LogNu = some c ∧
    ¬ ContinuousAt c.eval c.bmax ∧ c.eval c.bmax < nu0 ∧ 0.997 * nu0 < c.eval c.bmax := by
  refine ⟨_, by rw [logNuOf, lnS_mk]; rfl, ?_, ?_, ?_⟩
  · rw [C143_lognu_continuous_iff _ (lnS_deriv _).continuousAt]
    simp only [lnS_last]
    rw [lnS_eval_end]
    exact exp_end.1.ne
  · simp only [LogNu.eval, lnS_last, le_refl, if_true]
    rw [lnS_eval_end]; exact exp_end.1
  · simp only [LogNu.eval, lnS_last, le_refl, if_true]
    rw [lnS_eval_end]; exact exp_end.2

/-! ### The shipped steel, `bh` -/

/-- The spline of `H` over `B / B_max`. -/
def bhS : Spline := ⟨hiperco50BH.cps, hiperco50BH.scaled.knots, 3⟩

theorem bhS_mk : mk hiperco50BH.scaled = some bhS := by decide +kernel

theorem bhS_fits : fits bhS bhS.derive 3 25 = true := by decide +kernel

theorem bhS_slope : ∀ j ≤ 25, posOn 4 (dP bhS.derive.c bhS.derive.t 2 2 (2 + j))
    (bhS.derive.t.getD (2 + j) 0) (bhS.derive.t.getD (2 + j + 1) 0) = true := by decide +kernel

theorem bhS_deriv (b : ℝ) : HasDerivAt (fun y : ℝ => bhS.eval y) (bhS.derive.eval b) b :=
  fits_hasDeriv bhS bhS.derive 25 3 bhS_fits b

theorem bhS_pos (b : ℝ) (h0 : 0 ≤ b) (h1 : b ≤ 1) : 0 < bhS.derive.eval b := by
  have e0 : fn ℝ bhS.derive.t 2 = 0 := by
    have : bhS.derive.t.getD 2 0 = 0 := by decide +kernel
    unfold fn; rw [this]; norm_num
  have e1 : fn ℝ bhS.derive.t (2 + 25 + 1) = 1 := by
    have : bhS.derive.t.getD (2 + 25 + 1) 0 = 1 := by decide +kernel
    unfold fn; rw [this]; norm_num
  refine evalFrom_pieces bhS.derive (fun _ v => 0 < v) 25 2 b (by rw [e0]; exact h0)
    (by rw [e1]; exact h1) ?_
  intro j hj y hy0 hy1
  exact posOn_sound 4 _ _ _ (bhS_slope j hj) y hy0 hy1

theorem bhS_strict {x y : ℝ} (h0 : 0 ≤ x) (hxy : x < y) (h1 : y ≤ 1) : bhS.eval x < bhS.eval y := by
  have : StrictMonoOn (fun y : ℝ => bhS.eval y) (Set.Icc 0 1) := by
    refine strictMonoOn_of_deriv_pos (convex_Icc 0 1)
      (fun b _ => (bhS_deriv b).continuousAt.continuousWithinAt) (fun b hb => ?_)
    rw [interior_Icc] at hb
    rw [(bhS_deriv b).deriv]
    exact bhS_pos b hb.1.le hb.2.le
  exact this ⟨h0, by linarith⟩ ⟨by linarith, h1⟩ hxy

theorem bhS_first_dP : dP bhS.c bhS.t 3 3 3 = [0, 228280731 / 400000, -68199013 / 16000, 36329957 / 2880] := by
  decide +kernel

theorem bhS_first_dP' : dP bhS.derive.c bhS.derive.t 2 2 2 =
    [228280731 / 400000, -68199013 / 8000, 36329957 / 960] := by
  decide +kernel

theorem bhS_first {x : ℝ} (h1 : x < 8 / 100) :
    bhS.eval x = 228280731 / 400000 * x - 68199013 / 16000 * x ^ 2 + 36329957 / 2880 * x ^ 3 ∧
    bhS.derive.eval x = 228280731 / 400000 - 68199013 / 8000 * x + 36329957 / 960 * x ^ 2 := by
  have t1 : bhS.t.getD 4 0 = 2 / 25 := by decide +kernel
  have t2 : bhS.derive.t.getD 3 0 = 2 / 25 := by decide +kernel
  constructor
  · unfold Spline.eval
    rw [evalFrom_first _ _ _ _ _ _ (by
      change x < fn ℝ bhS.t 4; unfold fn; rw [t1]; push_cast; linarith), ← ev_dP]
    change ev (dP bhS.c bhS.t 3 3 3) x = _
    rw [bhS_first_dP]
    simp only [ev]
    push_cast
    ring
  · unfold Spline.eval
    rw [evalFrom_first _ _ _ _ _ _ (by
      change x < fn ℝ bhS.derive.t 3; unfold fn; rw [t2]; push_cast; linarith), ← ev_dP]
    change ev (dP bhS.derive.c bhS.derive.t 2 2 2) x = _
    rw [bhS_first_dP']
    simp only [ev]
    push_cast
    ring

theorem bhS_zero : bhS.eval (0 : ℝ) = 0 := by
  rw [(bhS_first (by norm_num)).1]; norm_num

/-- Value at the end of the last span of any spline whose last span ends at `x`. -/
theorem evalFrom_last (s : Spline) (x : ℝ) (more k : ℕ)
    (h : ∀ j < more, fn ℝ s.t (k + j + 1) ≤ x) :
    evalFrom (fn ℝ s.c) (fn ℝ s.t) s.p x k more = ev (dP s.c s.t s.p s.p (k + more)) x := by
  induction more generalizing k with
  | zero => rw [ev_dP]; rfl
  | succ n ih =>
    simp only [evalFrom]
    rw [if_neg (not_lt.2 (h 0 (by omega))), ih (k + 1) (fun j hj => ?_)]
    · rw [show k + 1 + n = k + (n + 1) by omega]
    · have := h (j + 1) (by omega)
      rwa [show k + (j + 1) + 1 = k + 1 + j + 1 by omega] at this

theorem bhS_end : bhS.eval (1 : ℝ) = ((hiperco50BH.cps.getLastD 0 : ℚ) : ℝ) := by
  have h : ∀ j < 25, bhS.t.getD (3 + j + 1) 0 ≤ 1 := by decide +kernel
  have e := evalFrom_last bhS 1 25 3 (fun j hj => by
    unfold fn; exact_mod_cast h j hj)
  have l : bhS.c.length - 1 - bhS.p = 25 := by decide +kernel
  unfold Spline.eval
  rw [l]
  change evalFrom (fn ℝ bhS.c) (fn ℝ bhS.t) bhS.p 1 3 25 = _
  rw [e]
  have v : ev (dP bhS.c bhS.t 3 3 28) (1 : ℚ) = hiperco50BH.cps.getLastD 0 := by decide +kernel
  have c := ev_cast (dP bhS.c bhS.t 3 3 28) 1
  rw [v] at c
  push_cast at c
  exact c.symm

theorem bh_last : ((hiperco50BH.knots.getLastD 0 : ℚ) : ℝ) = 5 / 2 := by
  have : hiperco50BH.knots.getLastD 0 = 5 / 2 := by decide +kernel
  rw [this]; norm_num

/-- The coefficient object. -/
noncomputable def bhC : BH :=
  ⟨((hiperco50BH.cps.getLastD 0 : ℚ) : ℝ), ((hiperco50BH.knots.getLastD 0 : ℚ) : ℝ), bhS.eval, bhS.derive.eval⟩

theorem bhC_bmax : bhC.bmax = 5 / 2 := bh_last

theorem bhC_hmax : bhC.hmax = 39788.736 := by
  have : hiperco50BH.cps.getLastD 0 = 4973592 / 125 := by decide +kernel
  change ((hiperco50BH.cps.getLastD 0 : ℚ) : ℝ) = _
  rw [this]; norm_num

theorem bhC_le {x y : ℝ} (h0 : 0 ≤ x) (hxy : x ≤ y) (h1 : y ≤ 1) : bhC.h x ≤ bhC.h y := by
  rcases eq_or_lt_of_le hxy with h | h
  · rw [h]
  · exact (bhS_strict h0 h h1).le

theorem bhC_positive (b : ℝ) (hb : 0 ≤ b) : 0 < bhC.eval b := by
  have hm := bhC_bmax
  unfold BH.eval
  split
  · rename_i h
    rw [hm]
    refine div_pos (bhS_pos _ (by positivity) ?_) (by norm_num)
    rw [div_le_one (by norm_num)]
    linarith [show (1e-14 : ℝ) < 5 / 2 by norm_num]
  · rename_i h
    have hb' : 0 < b := by linarith [not_le.1 h, show (0 : ℝ) < 1e-14 by norm_num]
    split
    · rename_i h1
      refine div_pos ?_ hb'
      rw [hm] at h1 ⊢
      have := bhS_strict le_rfl (show 0 < b / (5 / 2) by positivity) ((div_le_one (by norm_num)).2 h1)
      rw [bhS_zero] at this
      exact this
    · rename_i h1
      have h1 := not_le.1 h1
      have e : (bhC.hmax - nu0 * bhC.bmax) / b + nu0 = (bhC.hmax + nu0 * (b - bhC.bmax)) / b := by
        field_simp; ring
      rw [e]
      refine div_pos ?_ hb'
      have := mul_pos nu0_pos (sub_pos.2 h1)
      have := bhC_hmax
      linarith [show (0 : ℝ) < 39788.736 by norm_num]

theorem bhC_monotone : Verif.Diffusion.MonotoneFlux bhC.eval := by
  intro s t hs hst
  have hm := bhC_bmax
  by_cases h1 : s ≤ 1e-14
  · have es : bhC.eval s * s = (s / (5 / 2)) * bhS.derive.eval (s / (5 / 2)) := by
      unfold BH.eval
      rw [if_pos h1, hm]
      change bhS.derive.eval (s / (5 / 2)) / (5 / 2) * s = _
      ring
    obtain ⟨x, hx⟩ : ∃ x, x = s / (5 / 2) := ⟨_, rfl⟩
    have x0 : 0 ≤ x := by rw [hx]; positivity
    have x1 : x ≤ 1e-14 := by
      rw [hx, div_le_iff₀ (by norm_num)]; linarith [show (0 : ℝ) < 1e-14 by norm_num]
    have x1' : x < 8 / 100 := lt_of_le_of_lt x1 (by norm_num)
    obtain ⟨f1, f2⟩ := bhS_first x1'
    by_cases h2 : t ≤ 1e-14
    · have et : bhC.eval t * t = (t / (5 / 2)) * bhS.derive.eval (t / (5 / 2)) := by
        unfold BH.eval
        rw [if_pos h2, hm]
        change bhS.derive.eval (t / (5 / 2)) / (5 / 2) * t = _
        ring
      obtain ⟨y, hy⟩ : ∃ y, y = t / (5 / 2) := ⟨_, rfl⟩
      have y1 : y ≤ 1e-14 := by
        rw [hy, div_le_iff₀ (by norm_num)]; linarith [show (0 : ℝ) < 1e-14 by norm_num]
      have xy : x ≤ y := by rw [hx, hy]; exact div_le_div_of_nonneg_right hst (by norm_num)
      obtain ⟨_, g2⟩ := bhS_first (x := y) (lt_of_le_of_lt y1 (by norm_num))
      rw [es, et, ← hx, ← hy, f2, g2]
      have hd : 0 ≤ y - x := sub_nonneg.2 xy
      have y0 : 0 ≤ y := x0.trans xy
      have hf : 0 ≤ 228280731 / 400000 - 68199013 / 8000 * (x + y) +
          36329957 / 960 * (x ^ 2 + x * y + y ^ 2) := by
        have : 0 ≤ x ^ 2 + x * y + y ^ 2 := by positivity
        norm_num at x1 y1
        nlinarith
      have := mul_nonneg hd hf
      nlinarith
    · have ht : 1e-14 < t := not_le.1 h2
      have t0 : 0 < t := by linarith [show (0 : ℝ) < 1e-14 by norm_num]
      have key : x * bhS.derive.eval x ≤ bhS.eval x := by
        rw [f1, f2]
        have : 0 ≤ x ^ 2 * (68199013 / 16000 - 36329957 / 1440 * x) := by
          refine mul_nonneg (by positivity) ?_
          norm_num at x1
          linarith
        nlinarith
      obtain ⟨c1, c2⟩ := C143_bh_curve bhC t ht
      rw [es, ← hx]
      refine key.trans ?_
      by_cases h3 : t ≤ bhC.bmax
      · rw [c1 h3, hm]
        rw [hm] at h3
        refine bhC_le x0 ?_ ((div_le_one (by norm_num)).2 h3)
        rw [hx]; exact div_le_div_of_nonneg_right hst (by norm_num)
      · have h3 := not_le.1 h3
        rw [c2 h3]
        have a := bhC_le x0 (show x ≤ 1 by linarith) le_rfl
        have b : bhC.h 1 = bhC.hmax := bhS_end
        have := mul_nonneg nu0_pos.le (sub_nonneg.2 h3.le)
        change bhC.h x ≤ _
        linarith
  · exact C143_bh_monotone_partial bhC (by rw [hm]; norm_num) bhS_end (fun x y a b c => bhC_le a b c) s t
      (not_le.1 h1) hst

theorem bhC_continuous : ContinuousAt bhC.eval bhC.bmax := by
  have hm := bhC_bmax
  have ev0 : bhC.eval bhC.bmax = bhC.hmax / bhC.bmax := by
    unfold BH.eval
    rw [if_neg (by rw [hm]; norm_num), if_pos le_rfl, div_self (by rw [hm]; norm_num)]
    have : bhC.h 1 = bhC.hmax := bhS_end
    rw [this]
  have hn : ∀ᶠ y in 𝓝 bhC.bmax, ¬ y ≤ (1e-14 : ℝ) :=
    (eventually_gt_nhds (show (1e-14 : ℝ) < bhC.bmax by rw [hm]; norm_num)).mono fun _ => not_le.2
  rw [continuousAt_iff_continuous_left_right]
  constructor
  · have hc : ContinuousAt (fun y => bhC.h (y / bhC.bmax) / y) bhC.bmax := by
      refine ContinuousAt.div ?_ continuousAt_id (by rw [hm]; norm_num)
      have h1 : ContinuousAt (fun y : ℝ => y / bhC.bmax) bhC.bmax := continuousAt_id.div_const _
      exact ContinuousAt.comp (g := bhC.h) (bhS_deriv _).continuousAt h1
    refine hc.continuousWithinAt.congr_of_eventuallyEq ?_ ?_
    · filter_upwards [self_mem_nhdsWithin, nhdsWithin_le_nhds hn] with y hy hy'
      unfold BH.eval
      rw [if_neg hy', if_pos (Set.mem_Iic.1 hy)]
    · unfold BH.eval
      rw [if_neg (by rw [hm]; norm_num), if_pos le_rfl]
  · have hc : ContinuousAt (fun y => (bhC.hmax - nu0 * bhC.bmax) / y + nu0) bhC.bmax :=
      (continuousAt_const.div continuousAt_id (by rw [hm]; norm_num)).add continuousAt_const
    have e0 : bhC.eval bhC.bmax = (bhC.hmax - nu0 * bhC.bmax) / bhC.bmax + nu0 := by
      rw [ev0, hm]; ring
    refine hc.continuousWithinAt.congr_of_eventuallyEq ?_ e0
    filter_upwards [self_mem_nhdsWithin, nhdsWithin_le_nhds hn] with y hy hy'
    rcases eq_or_lt_of_le (Set.mem_Ici.1 hy) with h | h
    · rw [← h]; exact e0
    · unfold BH.eval
      rw [if_neg hy', if_neg (not_le.2 h)]

theorem bhC_differential (b v : ℝ) (hb : 1e-14 < b) (hv : bhC.d b = some v) : 0 < bhC.eval b + b * v := by
  have hm := bhC_bmax
  have b0 : 0 < b := by linarith [show (0 : ℝ) < 1e-14 by norm_num]
  have m0 : bhC.bmax ≠ 0 := by rw [hm]; norm_num
  unfold BH.d fdiv at hv
  unfold BH.eval
  rw [if_neg (not_le.2 hb)]
  by_cases h : b ≤ bhC.bmax
  · rw [if_pos h] at hv ⊢
    simp only [mul_eq_zero, b0.ne', m0, or_self, if_false, pow_eq_zero_iff two_ne_zero, Option.bind_some,
      Option.map_some, Option.some.injEq] at hv
    rw [← hv]
    have e : bhC.h (b / bhC.bmax) / b + b * (bhC.dh (b / bhC.bmax) / (b * bhC.bmax) -
        bhC.h (b / bhC.bmax) / b ^ 2) = bhC.dh (b / bhC.bmax) / bhC.bmax := by
      field_simp; ring
    rw [e, hm]
    rw [hm] at h
    exact div_pos (bhS_pos _ (by positivity) ((div_le_one (by norm_num)).2 h)) (by norm_num)
  · rw [if_neg h] at hv ⊢
    simp only [pow_eq_zero_iff two_ne_zero, b0.ne', if_false, Option.some.injEq] at hv
    rw [← hv]
    have e : (bhC.hmax - nu0 * bhC.bmax) / b + nu0 + b * (-(bhC.hmax - nu0 * bhC.bmax) / b ^ 2) = nu0 := by
      field_simp; ring
    rw [e]
    exact nu0_pos

/-- C208.  The `bh` coefficient of the shipped steel can be built although two of its control points
decrease; its reluctivity is positive, the field strength does not decrease with `B ≥ 0` on the whole
half line (strictly increasing below the last knot, `2.5`), it is continuous at the last knot, the
derivative spline is its derivative, and the differential reluctivity is positive above `1e-14`. -/
theorem C208_hiperco50_bh : ∃ c, bhOf hiperco50BH = some c ∧ c.bmax = 5 / 2 ∧ c.hmax = 39788.736 ∧
    Verif.Diffusion.MonotoneFlux c.eval ∧ (∀ b, 0 ≤ b → 0 < c.eval b) ∧
    (∀ x y, 0 ≤ x → x < y → y ≤ 1 → c.h x < c.h y) ∧
    (∀ t, HasDerivAt c.h (c.dh t) t) ∧ c.h 0 = 0 ∧ c.h 1 = c.hmax ∧
    ContinuousAt c.eval c.bmax ∧
    (∀ b v, 1e-14 < b → c.d b = some v → 0 < c.eval b + b * v) := by
  refine ⟨bhC, by rw [bhOf, bhS_mk]; rfl, bhC_bmax, bhC_hmax, bhC_monotone, bhC_positive,
    fun x y => bhS_strict, bhS_deriv, bhS_zero, bhS_end, bhC_continuous, bhC_differential⟩

/-- The control points themselves are not monotone. -/
example : hiperco50BH.cps.getD 21 0 < hiperco50BH.cps.getD 20 0 := by decide +kernel

/-- C208.  Hence the magnetostatic residual of an element of the shipped steel (either model) is a
monotone operator, and zero only without flux: `(A - A')·(R(A) - R(A')) ≥ 0` for all potentials, and
`A·R(A) = 0` exactly if the flux density vanishes at all quadrature points. -/
theorem C208_residual_monotone {ndof n : ℕ} (nu : ℝ → ℝ)
    (hnu : (∃ c, logNuOf hiperco50LogNu = some c ∧ nu = c.eval) ∨ (∃ c, bhOf hiperco50BH = some c ∧ nu = c.eval))
    (alpha : ℝ) (ha : 0 < alpha) (pt : ℕ → CurlCurl.CPt ndof)
    (hJ : ∀ i < n, 0 < (pt i).J) (hw : ∀ i < n, 0 < (pt i).w) (u v : Dense.Vec ndof) :
    0 ≤ Dense.dotv (fun r => u r - v r) (fun r => CurlCurl.elemVec alpha (fun _ => nu) n pt u r -
      CurlCurl.elemVec alpha (fun _ => nu) n pt v r) ∧
    (Dense.dotv u (CurlCurl.elemVec alpha (fun _ => nu) n pt u) = 0 ↔
      ∀ i < n, ∀ k, CurlCurl.curl (pt i) u k = 0) := by
  have h : Verif.Diffusion.MonotoneFlux nu ∧ ∀ b, 0 ≤ b → 0 < nu b := by
    rcases hnu with ⟨c, hc, rfl⟩ | ⟨c, hc, rfl⟩
    · obtain ⟨c', hc', _, h1, h2, _⟩ := C208_hiperco50_lognu
      rw [hc] at hc'; cases hc'
      exact ⟨h1, fun b _ => h2 b⟩
    · obtain ⟨c', hc', _, _, h1, h2, _⟩ := C208_hiperco50_bh
      rw [hc] at hc'; cases hc'
      exact ⟨h1, h2⟩
  exact ⟨CurlCurl.C136_monotone alpha ha.le _ pt hJ (fun i hi => (hw i hi).le)
    (fun _ _ s hs => (h.2 s hs).le) (fun _ _ => h.1) u v,
    (CurlCurl.C136_coercive alpha ha _ pt hJ hw (fun _ _ s hs => h.2 s hs) u).2⟩

/-- C208 (violation).  The library's `team13` curve cannot be used: its control points and knots are
interchanged (12 numbers up to 2.22 T as control points, 8 field strengths, not even increasing, as
knots), so that tinyspline rejects it. -/
theorem C208_team13_false : bhOf team13BH = none ∧ sorted team13BH.knots = false ∧
    team13BH.knots.length ≠ team13BH.cps.length + team13BH.degree + 1 := by
  refine ⟨?_, by decide +kernel, by decide +kernel⟩
  have : mk team13BH.scaled = none := by decide +kernel
  rw [bhOf, this]; rfl

/-! ### Any spline data -/

section general
variable {K : Type*} [Field K] [LinearOrder K] [IsStrictOrderedRing K]

/-- The weights of de Boor's algorithm lie in `[0, 1]` and do not decrease with `x`. -/
theorem weight {t : ℕ → K} (ht : ∀ i j, i ≤ j → t i ≤ t j) {p k r i : ℕ} (hk : t k < t (k + 1)) (hr : r < p)
    (hi : i ≤ k) (hi' : k + r + 1 ≤ i + p) {x y : K} (hx : t k ≤ x) (hxy : x ≤ y) (hy : y ≤ t (k + 1)) :
    0 ≤ (x - t i) / (t (i + p - r) - t i) ∧
    (x - t i) / (t (i + p - r) - t i) ≤ (y - t i) / (t (i + p - r) - t i) ∧
    (y - t i) / (t (i + p - r) - t i) ≤ 1 := by
  have a1 := ht i k hi
  have a2 := ht (k + 1) (i + p - r) (by omega)
  have pos : 0 < t (i + p - r) - t i := by linarith
  refine ⟨div_nonneg (by linarith) pos.le, div_le_div_of_nonneg_right (by linarith) pos.le, ?_⟩
  rw [div_le_one pos]
  linarith

/-- Ordering, hull and monotonicity of the intermediate points in one span. -/
theorem deBoor_span {c t : ℕ → K} (ht : ∀ i j, i ≤ j → t i ≤ t j) {p k : ℕ} (hpk : p ≤ k)
    (hk : t k < t (k + 1)) (hc : ∀ i j, k ≤ i + p → i ≤ j → j ≤ k → c i ≤ c j) (r : ℕ) (hr : r ≤ p) :
    (∀ i, k + r ≤ i + p → i + 1 ≤ k → ∀ x, t k ≤ x → x ≤ t (k + 1) →
      deBoor c t p x r i ≤ deBoor c t p x r (i + 1)) ∧
    (∀ i, k + r ≤ i + p → i ≤ k → ∀ x y, t k ≤ x → x ≤ y → y ≤ t (k + 1) →
      deBoor c t p x r i ≤ deBoor c t p y r i) ∧
    (∀ i, k + r ≤ i + p → i ≤ k → ∀ x, t k ≤ x → x ≤ t (k + 1) →
      c (i - r) ≤ deBoor c t p x r i ∧ deBoor c t p x r i ≤ c i) := by
  induction r with
  | zero =>
    refine ⟨fun i h1 h2 x _ _ => hc i (i + 1) (by omega) (by omega) h2, fun i _ _ x y _ _ _ => le_rfl,
      fun i _ _ x _ _ => ⟨le_rfl, le_rfl⟩⟩
  | succ r ih =>
    obtain ⟨o, m, hull⟩ := ih (by omega)
    have comb : ∀ i, k + (r + 1) ≤ i + p → i ≤ k → ∀ x, t k ≤ x → x ≤ t (k + 1) →
        deBoor c t p x r (i - 1) ≤ deBoor c t p x (r + 1) i ∧
        deBoor c t p x (r + 1) i ≤ deBoor c t p x r i := by
      intro i h1 h2 x hx hx'
      obtain ⟨w0, _, w1⟩ := weight ht hk (show r < p by omega) h2 (by omega) hx le_rfl hx'
      have oo := o (i - 1) (by omega) (by omega) x hx hx'
      rw [show i - 1 + 1 = i by omega] at oo
      simp only [deBoor]
      set a := (x - t i) / (t (i + p - r) - t i)
      set u := deBoor c t p x r (i - 1)
      set v := deBoor c t p x r i
      constructor
      · have := mul_nonneg w0 (sub_nonneg.2 oo); linarith
      · have := mul_nonneg (sub_nonneg.2 w1) (sub_nonneg.2 oo); linarith
    refine ⟨?_, ?_, ?_⟩
    · intro i h1 h2 x hx hx'
      have A := (comb i h1 (by omega) x hx hx').2
      have B := (comb (i + 1) (by omega) h2 x hx hx').1
      rw [Nat.add_sub_cancel] at B
      exact A.trans B
    · intro i h1 h2 x y hx hxy hy
      obtain ⟨w0, w01, w1⟩ := weight ht hk (show r < p by omega) h2 (by omega) hx hxy hy
      have oo := o (i - 1) (by omega) (by omega) y (hx.trans hxy) hy
      rw [show i - 1 + 1 = i by omega] at oo
      have m1 := m (i - 1) (by omega) (by omega) x y hx hxy hy
      have m2 := m i (by omega) h2 x y hx hxy hy
      simp only [deBoor]
      set a := (x - t i) / (t (i + p - r) - t i)
      set b := (y - t i) / (t (i + p - r) - t i)
      set u := deBoor c t p x r (i - 1)
      set v := deBoor c t p x r i
      set u' := deBoor c t p y r (i - 1)
      set v' := deBoor c t p y r i
      have n1 := mul_nonneg (sub_nonneg.2 (w01.trans w1)) (sub_nonneg.2 m1)
      have n2 := mul_nonneg w0 (sub_nonneg.2 m2)
      have n3 := mul_nonneg (sub_nonneg.2 w01) (sub_nonneg.2 oo)
      nlinarith
    · intro i h1 h2 x hx hx'
      obtain ⟨A, B⟩ := comb i h1 h2 x hx hx'
      have h3 := hull (i - 1) (by omega) (by omega) x hx hx'
      have h4 := hull i (by omega) h2 x hx hx'
      rw [show i - 1 - r = i - (r + 1) by omega] at h3
      exact ⟨h3.1.trans A, B.trans h4.2⟩

/-- Neighbouring pieces agree at a simple knot, and do not jump down for degree 0. -/
theorem deBoor_knot {c t : ℕ → K} {p k : ℕ} (hk : t k < t (k + 1)) (hc : c k ≤ c (k + 1)) :
    deBoor c t p (t (k + 1)) p k ≤ deBoor c t p (t (k + 1)) p (k + 1) := by
  cases p with
  | zero => exact hc
  | succ p =>
    have pos : t (k + 1) - t k ≠ 0 := (sub_pos.2 hk).ne'
    simp only [deBoor]
    have z : (t (k + 1) - t (k + 1)) / (t (k + 1 + (p + 1) - p) - t (k + 1)) = 0 := by
      rw [sub_self, zero_div]
    rw [show k + (p + 1) - p = k + 1 by omega, div_self pos, z]
    simp

/-- Monotonicity over all spans. -/
theorem evalFrom_mono {c t : ℕ → K} (ht : ∀ i j, i ≤ j → t i ≤ t j) {p : ℕ} (more k : ℕ) (hpk : p ≤ k)
    (hk : ∀ j ≤ more, t (k + j) < t (k + j + 1)) (hc : ∀ i j, k ≤ i + p → i ≤ j → j ≤ k + more → c i ≤ c j)
    (x y : K) (hx : t k ≤ x) (hxy : x ≤ y) (hy : y ≤ t (k + more + 1)) :
    evalFrom c t p x k more ≤ evalFrom c t p y k more := by
  induction more generalizing k x with
  | zero =>
    exact (deBoor_span ht hpk (hk 0 le_rfl) (fun i j h1 h2 h3 => hc i j h1 h2 h3) p le_rfl).2.1 k
      le_rfl le_rfl x y hx hxy hy
  | succ n ih =>
    have span := (deBoor_span ht hpk (hk 0 (by omega)) (fun i j h1 h2 h3 => hc i j h1 h2 (by omega)) p
      le_rfl).2.1 k le_rfl le_rfl
    have ih' := ih (k + 1) (by omega)
      (fun j hj => by
        have := hk (j + 1) (by omega)
        rwa [show k + (j + 1) = k + 1 + j by omega] at this)
      (fun i j h1 h2 h3 => hc i j (by omega) h2 (by omega))
    simp only [evalFrom]
    by_cases h1 : x < t (k + 1)
    · rw [if_pos h1]
      by_cases h2 : y < t (k + 1)
      · rw [if_pos h2]
        exact span x y hx hxy h2.le
      · rw [if_neg h2]
        have h2 := not_lt.1 h2
        refine (span x (t (k + 1)) hx h1.le le_rfl).trans ?_
        refine (deBoor_knot (hk 0 (by omega)) (hc k (k + 1) (by omega) (by omega) (by omega))).trans ?_
        have e : deBoor c t p (t (k + 1)) p (k + 1) = evalFrom c t p (t (k + 1)) (k + 1) n := by
          rw [evalFrom_first]
          have := hk 1 (by omega)
          exact this
        rw [e]
        exact ih' (t (k + 1)) le_rfl h2 (by rwa [show k + 1 + n + 1 = k + (n + 1) + 1 by omega])
    · rw [if_neg h1, if_neg (not_lt.2 ((not_lt.1 h1).trans hxy))]
      exact ih' x (not_lt.1 h1) hxy (by rwa [show k + 1 + n + 1 = k + (n + 1) + 1 by omega])

theorem sorted_getD {l : List ℚ} (h : sorted l = true) {i j : ℕ} (hij : i ≤ j) (hj : j < l.length) :
    l.getD i 0 ≤ l.getD j 0 := by
  induction l generalizing i j with
  | nil => simp at hj
  | cons a l ih =>
    cases l with
    | nil =>
      have : j = 0 := by simpa using hj
      have : i = 0 := by omega
      subst_vars; exact le_rfl
    | cons b l =>
      simp only [sorted, Bool.and_eq_true, decide_eq_true_eq] at h
      cases j with
      | zero => have : i = 0 := by omega
                subst this; exact le_rfl
      | succ j =>
        have hj' : j < (b :: l).length := by simpa using hj
        cases i with
        | zero =>
          have := ih h.2 (Nat.zero_le j) hj'
          exact h.1.trans this
        | succ i => exact ih h.2 (by omega) hj'

/-- The knots as a monotone sequence (continued by the last knot). -/
def ext (l : List ℚ) (i : ℕ) : K := ((l.getD (min i (l.length - 1)) 0 : ℚ) : K)

theorem ext_mono {l : List ℚ} (h : sorted l = true) (i j : ℕ) (hij : i ≤ j) : (ext l i : K) ≤ ext l j := by
  unfold ext
  rcases Nat.eq_zero_or_pos l.length with h0 | h0
  · rw [h0]; simp
  · have := sorted_getD h (show min i (l.length - 1) ≤ min j (l.length - 1) by omega) (by omega)
    exact_mod_cast this

omit [LinearOrder K] [IsStrictOrderedRing K] in
/-- De Boor only uses knots in the list. -/
theorem deBoor_congr {c t t' : ℕ → K} {p : ℕ} {x : K} (N : ℕ) (h : ∀ i ≤ N, t i = t' i) (r : ℕ) (hr : r ≤ p) (i : ℕ)
    (hi : i + p ≤ N) : deBoor c t p x r i = deBoor c t' p x r i := by
  induction r generalizing i with
  | zero => rfl
  | succ r ih =>
    simp only [deBoor]
    rw [h i (by omega), h (i + p - r) (by omega), ih (by omega) (i - 1) (by omega), ih (by omega) i hi]

omit [IsStrictOrderedRing K] in
theorem evalFrom_congr {c t t' : ℕ → K} {p : ℕ} {x : K} (N : ℕ) (h : ∀ i ≤ N, t i = t' i) (more k : ℕ)
    (hN : k + more + p ≤ N) (hp : 1 ≤ p) : evalFrom c t p x k more = evalFrom c t' p x k more := by
  induction more generalizing k with
  | zero => exact deBoor_congr N h p le_rfl k (by omega)
  | succ n ih =>
    simp only [evalFrom]
    rw [h (k + 1) (by omega), deBoor_congr N h p le_rfl k (by omega), ih (k + 1) (by omega)]

/-- C208, any spline data tinyspline accepts (degree at least 1, simple inner knots): if the control
points do not decrease, the curve does not decrease between the first and the last proper knot.  (The
data of a user's own magnetisation curve, given in the options.) -/
theorem C208_monotone_data (d : Data) (s : Spline) (hs : mk d = some s) (hp : 1 ≤ d.degree)
    (hc : ∀ i j, i ≤ j → j < d.cps.length → d.cps.getD i 0 ≤ d.cps.getD j 0)
    (hk : ∀ j, d.degree ≤ j → j < d.cps.length → d.knots.getD j 0 < d.knots.getD (j + 1) 0) (x y : K)
    (hx : ((d.knots.getD d.degree 0 : ℚ) : K) ≤ x) (hxy : x ≤ y)
    (hy : y ≤ ((d.knots.getD d.cps.length 0 : ℚ) : K)) : s.eval x ≤ s.eval y := by
  unfold mk at hs
  split at hs
  · exact absurd hs (by simp)
  · rename_i hn
    push Not at hn
    obtain ⟨n1, n2, n3⟩ := hn
    have n3 : sorted d.knots = true := by simpa using n3
    cases hs
    unfold Spline.eval
    simp only
    set m := d.cps.length - 1 - d.degree with hm
    have E : ∀ z : K, evalFrom (fn K d.cps) (fn K d.knots) d.degree z d.degree m =
        evalFrom (fn K d.cps) (ext d.knots) d.degree z d.degree m := fun z =>
      evalFrom_congr (d.knots.length - 1) (fun i hi => by
        unfold fn ext; rw [min_eq_left hi]) m d.degree (by omega) hp
    have fe : ∀ i, i < d.knots.length → (ext d.knots i : K) = ((d.knots.getD i 0 : ℚ) : K) := fun i hi => by
      unfold ext; rw [min_eq_left (by omega)]
    rw [E, E]
    refine evalFrom_mono (ext_mono n3) m d.degree le_rfl (fun j hj => ?_) (fun i j _ h2 h3 => ?_) x y ?_ hxy ?_
    · rw [fe _ (by omega), fe _ (by omega)]
      have := hk (d.degree + j) (by omega) (by omega)
      exact_mod_cast this
    · unfold fn
      have := hc i j h2 (by omega)
      exact_mod_cast this
    · rw [fe _ (by omega)]; exact hx
    · rw [show d.degree + m + 1 = d.cps.length by omega, fe _ (by omega)]; exact hy

omit [LinearOrder K] [IsStrictOrderedRing K] in
theorem deBoor_left {c t : ℕ → K} {p : ℕ} {x : K} (h : ∀ i, 1 ≤ i → i ≤ p → t i = x) (r i : ℕ) (hr : r ≤ i) (hi : i ≤ p) :
    deBoor c t p x r i = c (i - r) := by
  induction r generalizing i with
  | zero => rfl
  | succ r ih =>
    simp only [deBoor]
    rw [h i (by omega) hi, sub_self, zero_div, ih (i - 1) (by omega) (by omega)]
    rw [show i - 1 - r = i - (r + 1) by omega]
    ring

omit [LinearOrder K] [IsStrictOrderedRing K] in
theorem deBoor_right {c t : ℕ → K} {p k : ℕ} {x : K} (hk : t k ≠ x) (h : ∀ i, k + 1 ≤ i → i ≤ k + p → t i = x) (r : ℕ)
    (hr : r ≤ p) : deBoor c t p x r k = c k := by
  induction r with
  | zero => rfl
  | succ r ih =>
    simp only [deBoor]
    rw [h (k + p - r) (by omega) (by omega), div_self (sub_ne_zero.2 hk.symm), ih (by omega)]
    ring

/-- C208.  With clamped knots the curve starts at the first control point and ends at the last. -/
theorem C208_end_points (d : Data) (s : Spline) (hs : mk d = some s)
    (hk : ∀ j, d.degree ≤ j → j < d.cps.length → d.knots.getD j 0 < d.knots.getD (j + 1) 0)
    (hl : ∀ i ≤ d.degree, d.knots.getD i 0 = d.knots.getD d.degree 0)
    (hr : ∀ i, d.cps.length ≤ i → i ≤ d.cps.length + d.degree →
      d.knots.getD i 0 = d.knots.getD d.cps.length 0) :
    s.eval ((d.knots.getD d.degree 0 : ℚ) : K) = ((d.cps.getD 0 0 : ℚ) : K) ∧
    s.eval ((d.knots.getD d.cps.length 0 : ℚ) : K) = ((d.cps.getLastD 0 : ℚ) : K) := by
  unfold mk at hs
  split at hs
  · exact absurd hs (by simp)
  · rename_i hn
    push Not at hn
    obtain ⟨n1, n2, n3⟩ := hn
    have n3 : sorted d.knots = true := by simpa using n3
    cases hs
    unfold Spline.eval
    simp only
    constructor
    · rw [evalFrom_first]
      · rw [deBoor_left (fun i _ h2 => by unfold fn; rw [hl i h2]) _ _ le_rfl le_rfl, Nat.sub_self]
        rfl
      · have := hk d.degree le_rfl (by omega)
        unfold fn
        exact_mod_cast this
    · have last : ∀ (more k : ℕ), d.degree ≤ k → k + more + 1 = d.cps.length →
          evalFrom (fn K d.cps) (fn K d.knots) d.degree ((d.knots.getD d.cps.length 0 : ℚ) : K) k more =
          fn K d.cps (d.cps.length - 1) := by
        intro more
        induction more with
        | zero =>
          intro k h0 h1
          have : d.cps.length - 1 = k := by omega
          rw [this]
          refine deBoor_right ?_ (fun i h2 h3 => ?_) _ le_rfl
          · have := hk k h0 (by omega)
            rw [show k + 1 = d.cps.length by omega] at this
            unfold fn
            intro e
            have e' : d.knots.getD k 0 = d.knots.getD d.cps.length 0 := by exact_mod_cast e
            exact this.ne e'
          · unfold fn; rw [hr i (by omega) (by omega)]
        | succ n ih =>
          intro k h0 h1
          simp only [evalFrom]
          rw [if_neg, ih (k + 1) (by omega) (by omega)]
          rw [not_lt]
          unfold fn
          have := sorted_getD n3 (show k + 1 ≤ d.cps.length by omega) (by omega)
          exact_mod_cast this
      rw [last _ _ le_rfl (by omega)]
      unfold fn
      congr 1
      cases hc : d.cps with
      | nil => rw [hc] at n1; simp at n1
      | cons a l => simp [List.getD, List.getLastD_cons, List.getLast_eq_getElem, List.getLastD_eq_getLast?,
          List.getLast?_eq_getElem?]

end general

/-- C208, user data for the `bh` model: non-decreasing control points on clamped knots with simple
inner knots, starting at `B = 0`, give a field strength that does not decrease with the flux density
above `1e-14`. -/
theorem C208_bh_user_partial (d : Data) (c : BH) (hb : bhOf d = some c) (hp : 1 ≤ d.degree)
    (hc : ∀ i j, i ≤ j → j < d.cps.length → d.cps.getD i 0 ≤ d.cps.getD j 0)
    (hk : ∀ j, d.degree ≤ j → j < d.cps.length → d.scaled.knots.getD j 0 < d.scaled.knots.getD (j + 1) 0)
    (hl : ∀ i ≤ d.degree, d.scaled.knots.getD i 0 = 0)
    (hr : ∀ i, d.cps.length ≤ i → i ≤ d.cps.length + d.degree → d.scaled.knots.getD i 0 = 1)
    (hbm : 1e-14 < c.bmax) (s t : ℝ) (hs : 1e-14 < s) (hst : s ≤ t) : c.eval s * s ≤ c.eval t * t := by
  unfold bhOf at hb
  cases hm : mk d.scaled with
  | none => rw [hm] at hb; exact absurd hb (by simp)
  | some sp =>
    rw [hm] at hb
    cases hb
    have hkn : d.scaled.knots.getD d.degree 0 = 0 := hl _ le_rfl
    have hkr : d.scaled.knots.getD d.cps.length 0 = 1 := hr _ le_rfl (by omega)
    have e := C208_end_points (K := ℝ) d.scaled sp hm hk (fun i hi => by
        rw [hl i hi]; exact hkn.symm) (fun i h1 h2 => by rw [hr i h1 h2]; exact hkr.symm)
    refine C143_bh_monotone_partial _ hbm ?_ (fun x y h0 hxy h1 => ?_) s t hs hst
    · have e2 := e.2
      have : ((d.scaled.knots.getD d.scaled.cps.length 0 : ℚ) : ℝ) = 1 := by
        have : d.scaled.knots.getD d.scaled.cps.length 0 = 1 := hkr
        rw [this]; norm_num
      rw [this] at e2
      exact e2
    · refine C208_monotone_data d.scaled sp hm hp hc hk x y ?_ hxy ?_
      · have : d.scaled.knots.getD d.scaled.degree 0 = 0 := hkn
        rw [this]; push_cast; exact h0
      · have : d.scaled.knots.getD d.scaled.cps.length 0 = 1 := hkr
        rw [this]; push_cast; exact h1

/-- Non-vacuity: a quadratic curve with one inner knot. -/
def userBH : Data where
  cps := [0, 100, 500, 40000]
  knots := [0, 0, 0, 1, 2, 2, 2]
  degree := 2

example : (mk userBH.scaled).isSome ∧
    (∀ i < 4, ∀ j < 4, i ≤ j → userBH.cps.getD i 0 ≤ userBH.cps.getD j 0) ∧
    (∀ j < 4, 2 ≤ j → userBH.scaled.knots.getD j 0 < userBH.scaled.knots.getD (j + 1) 0) ∧
    (∀ i ≤ 2, userBH.scaled.knots.getD i 0 = 0) ∧ (∀ i < 7, 4 ≤ i → userBH.scaled.knots.getD i 0 = 1) := by
  decide +kernel

end Verif.BSpline
