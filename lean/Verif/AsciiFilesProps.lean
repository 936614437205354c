import Verif.AsciiFiles

/-!
# Text state files: property theorems (C69)
-/

namespace Verif.AsciiFiles

private theorem two_zpow_pos (e : ℤ) : (0 : ℚ) < (2 : ℚ) ^ e := zpow_pos (by norm_num) e

/-- normal form: significand full or smallest exponent -/
private theorem normalise {x : ℚ} (hx : IsDouble x) (h0 : x ≠ 0) :
    ∃ m e : ℤ, |m| < 2 ^ 53 ∧ -1074 ≤ e ∧ e ≤ 971 ∧ x = m * (2 : ℚ) ^ e ∧ (2 ^ 52 ≤ |m| ∨ e = -1074) := by
  obtain ⟨m, e, hm, he1, he2, rfl⟩ := hx
  -- induct on the room left below the exponent
  have key : ∀ (n : ℕ) (m e : ℤ), (e + 1074 = n) → |m| < 2 ^ 53 → e ≤ 971 →
      ∃ m' e' : ℤ, |m'| < 2 ^ 53 ∧ -1074 ≤ e' ∧ e' ≤ 971 ∧ (m : ℚ) * (2 : ℚ) ^ e = m' * (2 : ℚ) ^ e' ∧
        (2 ^ 52 ≤ |m'| ∨ e' = -1074) := by
    intro n
    induction n with
    | zero => intro m e hn hm he; exact ⟨m, e, hm, by omega, he, rfl, Or.inr (by omega)⟩
    | succ n ih =>
      intro m e hn hm he
      by_cases hb : 2 ^ 52 ≤ |m|
      · exact ⟨m, e, hm, by omega, he, rfl, Or.inl hb⟩
      · obtain ⟨m', e', h1, h2, h3, h4, h5⟩ := ih (2 * m) (e - 1) (by omega)
          (by rw [abs_mul]; norm_num; push Not at hb; omega) (by omega)
        refine ⟨m', e', h1, h2, h3, ?_, h5⟩
        rw [← h4]
        push_cast
        rw [zpow_sub_one₀ (by norm_num)]
        ring
  exact key (e + 1074).toNat m e (by omega) hm he2

/-- Distinct doubles near `x` are at least half a unit in the last place apart. -/
private theorem gap {m e : ℤ} {w : ℚ} (he : -1074 ≤ e) (hn : 2 ^ 52 ≤ |m| ∨ e = -1074)
    (hw : IsDouble w) (hne : w ≠ m * (2 : ℚ) ^ e) : (2 : ℚ) ^ (e - 1) ≤ |w - m * (2 : ℚ) ^ e| := by
  obtain ⟨m', e', hm', he1, -, rfl⟩ := hw
  by_cases hle : e - 1 ≤ e'
  · obtain ⟨k, hk⟩ := Int.eq_ofNat_of_zero_le (show 0 ≤ e' - (e - 1) by omega)
    have e1 : (2 : ℚ) ^ e' = 2 ^ (e - 1) * (2 : ℚ) ^ k := by
      rw [show e' = (e - 1) + k by omega, zpow_add₀ (by norm_num), zpow_natCast]
    have e2 : (2 : ℚ) ^ e = 2 ^ (e - 1) * 2 := by
      rw [show e = (e - 1) + 1 by omega, zpow_add_one₀ (by norm_num)]; simp
    have e3 : (m' : ℚ) * 2 ^ e' - m * 2 ^ e = ((m' * 2 ^ k - m * 2 : ℤ) : ℚ) * 2 ^ (e - 1) := by
      rw [e1, e2]; push_cast; ring
    have hz : (m' * 2 ^ k - m * 2 : ℤ) ≠ 0 := by
      intro h0
      apply hne
      have : (m' : ℚ) * 2 ^ e' - m * 2 ^ e = 0 := by rw [e3, h0]; simp
      linarith
    have h1 : (1 : ℚ) ≤ |((m' * 2 ^ k - m * 2 : ℤ) : ℚ)| := by
      rw [← Int.cast_abs]
      exact_mod_cast Int.one_le_abs hz
    rw [e3, abs_mul, abs_of_pos (two_zpow_pos (e - 1))]
    nlinarith [two_zpow_pos (e - 1)]
  · have hm : (2 : ℚ) ^ 52 ≤ |(m : ℚ)| := by
      rcases hn with h | h
      · rw [← Int.cast_abs]; exact_mod_cast h
      · omega
    have hm'q : |(m' : ℚ)| ≤ 2 ^ 53 := by rw [← Int.cast_abs]; exact_mod_cast hm'.le
    have hp := two_zpow_pos (e - 2)
    have e2 : (2 : ℚ) ^ e = 2 ^ (e - 2) * 4 := by
      rw [show e = (e - 2) + 2 by omega, zpow_add₀ (by norm_num)]; norm_num
    have e1 : (2 : ℚ) ^ (e - 1) = 2 ^ (e - 2) * 2 := by
      rw [show e - 1 = (e - 2) + 1 by omega, zpow_add_one₀ (by norm_num)]
    have he' : (2 : ℚ) ^ e' ≤ 2 ^ (e - 2) := zpow_le_zpow_right₀ (by norm_num) (by omega)
    have hb : |(m' : ℚ) * 2 ^ e'| ≤ 2 ^ 53 * 2 ^ (e - 2) := by
      rw [abs_mul, abs_of_pos (two_zpow_pos _)]
      exact mul_le_mul hm'q he' (two_zpow_pos _).le (by positivity)
    have ha : (2 : ℚ) ^ 52 * (2 ^ (e - 2) * 4) ≤ |(m : ℚ) * 2 ^ e| := by
      rw [abs_mul, abs_of_pos (two_zpow_pos _), e2]
      exact mul_le_mul_of_nonneg_right hm (by positivity)
    have := abs_sub_abs_le_abs_sub ((m : ℚ) * 2 ^ e) ((m' : ℚ) * 2 ^ e')
    rw [abs_sub_comm] at this
    rw [e1]
    nlinarith

/-- Every double other than `x` is farther from the printed decimal than `x` is. -/
private theorem far {d : ℕ} (hd : 18 ≤ d) {x y w : ℚ} (hx : IsDouble x)
    (hp : Prints d (.fin x) (.fin y)) (hw : IsDouble w) (hne : w ≠ x) : |x - y| < |w - y| := by
  rcases hp with ⟨rfl, rfl⟩ | ⟨E, k, hE, -, -, herr⟩
  · simpa using hne
  · have hx0 : x ≠ 0 := by
      rintro rfl
      have : (0 : ℚ) < 10 ^ E := zpow_pos (by norm_num) E
      simp at hE; linarith
    obtain ⟨m, e, hm, he1, he2, rfl, hnorm⟩ := normalise hx hx0
    have hg := gap he1 hnorm hw hne
    have h10 : (10 : ℚ) ^ (E + 1 - (d : ℤ)) ≤ (10 : ℚ) ^ E / 10 ^ 17 := by
      rw [show (10 : ℚ) ^ E / 10 ^ 17 = 10 ^ (E - 17) by
        rw [zpow_sub₀ (by norm_num)]; norm_num]
      exact zpow_le_zpow_right₀ (by norm_num) (by omega)
    have hmq : |(m : ℚ)| ≤ 2 ^ 53 := by rw [← Int.cast_abs]; exact_mod_cast hm.le
    have hup : |(m : ℚ) * 2 ^ e| ≤ 2 ^ 53 * 2 ^ e := by
      rw [abs_mul, abs_of_pos (two_zpow_pos e)]
      exact mul_le_mul_of_nonneg_right hmq (two_zpow_pos e).le
    have e2 : (2 : ℚ) ^ e = 2 ^ (e - 1) * 2 := by
      rw [show e = (e - 1) + 1 by omega, zpow_add_one₀ (by norm_num)]; simp
    have htri : |w - (m : ℚ) * 2 ^ e| ≤ |w - y| + |y - (m : ℚ) * 2 ^ e| := abs_sub_le _ _ _
    have hc : |(m : ℚ) * 2 ^ e - y| = |y - (m : ℚ) * 2 ^ e| := abs_sub_comm _ _
    have hpos := two_zpow_pos (e - 1)
    rw [e2] at hup
    have hfin : (10 : ℚ) ^ E / 10 ^ 17 ≤ 2 ^ 53 * (2 ^ (e - 1) * 2) / 10 ^ 17 := by
      apply div_le_div_of_nonneg_right (by rw [e2] at hE; exact hE.trans hup) (by norm_num)
    have hbig : (2 : ℚ) ^ 53 * (2 ^ (e - 1) * 2) / 10 ^ 17 < 2 ^ (e - 1) := by
      rw [div_lt_iff₀ (by norm_num)]
      nlinarith
    linarith

/-- Printing with at least 18 significant digits and parsing back is exact. -/
private theorem roundtrip {d : ℕ} (hd : 18 ≤ d) {x y z : ℚ} (hx : IsDouble x)
    (hp : Prints d (.fin x) (.fin y)) (hn : Nearest y z) : z = x := by
  by_contra hne
  have := far hd hx hp hn.1 hne
  have := hn.2 x hx
  linarith

private theorem nearest_self {d : ℕ} (hd : 18 ≤ d) {x y : ℚ} (hx : IsDouble x)
    (hp : Prints d (.fin x) (.fin y)) : Nearest y x := by
  refine ⟨hx, fun w hw => ?_⟩
  by_cases h : w = x
  · rw [h]
  · exact (far hd hx hp hw h).le

/-! ### C69 -/

/-- **C69** A text state file whose time and entries are all finite reads back exactly, whatever the destination
held, for every tie-breaking rule of the conversions. -/
theorem C69_ascii_roundtrip_partial (time : ℚ) (data : List ℚ) (ht : IsDouble time)
    (hd : ∀ x ∈ data, IsDouble x) (f : Text) (hs : Saves (.fin time) (data.map .fin) f)
    (time0 : Val) (junk : ℕ → List Val) (hj : ∀ n, (junk n).length = n) (t : Val) (vs : List Val)
    (hr : Reads f time0 junk t vs) : t = .fin time ∧ vs = data.map .fin := by
  obtain ⟨h1, h2, h3⟩ := hs
  have ent : ∀ (data : List ℚ) (es olds vs : List Val), olds.length = data.length →
      (∀ x ∈ data, IsDouble x) →
      List.Forall₂ (Prints 18) (data.map .fin) es → ReadEntries true es olds vs → vs = data.map .fin := by
    intro data
    induction data with
    | nil =>
      intro es olds vs hl _ hf hr
      cases hf
      rw [List.length_nil, List.length_eq_zero_iff] at hl
      subst hl
      cases hr; rfl
    | cons x data ih =>
      intro es olds vs hl hd hf hr
      cases hf with
      | cons hp hf =>
        cases hr with
        | surplus => simp at hl
        | cons hx hr =>
          rename_i tok _ _ _ _ _ _
          cases tok with
          | nonfinite => exact absurd hp (by simp [Prints])
          | fin y =>
            cases hx with
            | ok hn =>
              rw [roundtrip (by norm_num) (hd x (by simp)) hp hn,
                ih _ _ _ (by simpa using hl) (fun x hx => hd x (by simp [hx])) hf hr]
              rfl
  obtain ⟨ft, fs, fe⟩ := f
  simp only at h1 h2 h3
  cases ft with
  | nonfinite => exact absurd h1 (by simp [Prints])
  | fin y =>
    cases hr with
    | ok hx hr =>
      cases hx with
      | ok hn => exact ⟨by rw [roundtrip (by norm_num) ht h1 hn], ent data fe _ vs (by rw [hj, h2]; simp) hd h3 hr⟩
    | badTime hx => cases hx

/-- **C69 (reading succeeds)** Such a file can always be read: the reader never gets stuck, so the previous
theorem describes the actual outcome. -/
theorem C69_ascii_readable (time : ℚ) (data : List ℚ) (ht : IsDouble time)
    (hd : ∀ x ∈ data, IsDouble x) (f : Text) (hs : Saves (.fin time) (data.map .fin) f)
    (time0 : Val) (junk : ℕ → List Val) (hj : ∀ n, (junk n).length = n) :
    Reads f time0 junk (.fin time) (data.map .fin) := by
  obtain ⟨h1, h2, h3⟩ := hs
  have ent : ∀ (data : List ℚ) (es olds : List Val), olds.length = data.length →
      (∀ x ∈ data, IsDouble x) →
      List.Forall₂ (Prints 18) (data.map .fin) es → ReadEntries true es olds (data.map .fin) := by
    intro data
    induction data with
    | nil =>
      intro es olds hl _ hf
      cases hf
      rw [List.length_nil, List.length_eq_zero_iff] at hl
      subst hl
      exact .eof
    | cons x data ih =>
      intro es olds hl hd hf
      cases hf with
      | cons hp hf =>
        rename_i tok toks
        cases olds with
        | nil => simp at hl
        | cons o olds =>
          cases tok with
          | nonfinite => exact absurd hp (by simp [Prints])
          | fin y =>
            exact .cons (.ok (nearest_self (by norm_num) (hd x (by simp)) hp))
              (ih _ _ (by simpa using hl) (fun x hx => hd x (by simp [hx])) hf)
  obtain ⟨ft, fs, fe⟩ := f
  simp only at h1 h2 h3
  cases ft with
  | nonfinite => exact absurd h1 (by simp [Prints])
  | fin y =>
    exact .ok (.ok (nearest_self (by norm_num) ht h1)) (ent data fe _ (by rw [hj, h2]; simp) hd h3)

/-- **C69 (violated for non-finite values)** If the saved time is infinite or NaN the file never reads back: the
time becomes 0 and the state is empty. -/
theorem C69_false_nonfinite_time (data : List Val) (f : Text) (hs : Saves .nonfinite data f)
    (time0 : Val) (junk : ℕ → List Val) (t : Val) (vs : List Val) (hr : Reads f time0 junk t vs) :
    t = .fin 0 ∧ vs = [] := by
  obtain ⟨ft, fs, fe⟩ := f
  obtain ⟨h1, -, -⟩ := hs
  simp only at h1
  cases ft with
  | fin y => exact absurd h1 (by simp [Prints])
  | nonfinite =>
    cases hr with
    | ok hx _ => cases hx
    | badTime hx => cases hx; exact ⟨rfl, rfl⟩

/-- **C69 (violated for non-finite values)** After the first non-finite entry every later entry is lost: the
vector keeps there whatever memory `SetSize` left. -/
theorem C69_false_nonfinite_entry (pre : List ℚ) (post : List Val) (hd : ∀ x ∈ pre, IsDouble x)
    (es olds vs : List Val)
    (hs : List.Forall₂ (Prints 18) (pre.map .fin ++ .nonfinite :: post) es)
    (hl : olds.length = pre.length + 1 + post.length) (hr : ReadEntries true es olds vs) :
    vs = pre.map .fin ++ .fin 0 :: olds.drop (pre.length + 1) := by
  have failed : ∀ (es olds vs : List Val), ReadEntries false es olds vs → vs = olds := by
    intro es olds vs h
    generalize hg : false = g at h
    induction h with
    | eof => rfl
    | surplus => rfl
    | cons hx _ ih => subst hg; cases hx; rw [ih rfl]
  induction pre generalizing es olds vs with
  | nil =>
    simp only [List.map_nil, List.nil_append] at hs
    cases hs with
    | cons hp hs =>
      cases hr with
      | surplus => simp at hl; omega
      | cons hx hr =>
        rename_i tok _ _ _ _ _ _
        cases tok with
        | fin y => exact absurd hp (by simp [Prints])
        | nonfinite => cases hx; simp [failed _ _ _ hr]
  | cons x pre ih =>
    simp only [List.map_cons, List.cons_append] at hs
    cases hs with
    | cons hp hs =>
      cases hr with
      | surplus => simp at hl; omega
      | cons hx hr =>
        rename_i tok _ _ _ _ _ _
        cases tok with
        | nonfinite => exact absurd hp (by simp [Prints])
        | fin y =>
          cases hx with
          | ok hn =>
            rw [roundtrip (by norm_num) (hd x (by simp)) hp hn,
              ih (fun x hx => hd x (by simp [hx])) _ _ _ hs
                (by simp only [List.length_cons] at hl; omega) hr]
            simp

/-- The hypotheses are met, e.g. by the double nearest to 0.1. -/
example : IsDouble (3602879701896397 / 36028797018963968) ∧
    Prints 18 (.fin (3602879701896397 / 36028797018963968)) (.fin (100000000000000006 / 10 ^ 18)) ∧
    Saves (.fin 1) [.fin (3602879701896397 / 36028797018963968)]
      ⟨.fin 1, 1, [.fin (100000000000000006 / 10 ^ 18)]⟩ := by
  have hp : Prints 18 (.fin (3602879701896397 / 36028797018963968)) (.fin (100000000000000006 / 10 ^ 18)) :=
    Or.inr ⟨-1, 100000000000000006, by norm_num [abs_of_pos], by norm_num [abs_of_pos], by norm_num,
      by norm_num [abs_le]⟩
  refine ⟨⟨3602879701896397, -55, by norm_num, by norm_num, by norm_num, by norm_num⟩, hp, ?_, rfl,
    List.Forall₂.cons hp .nil⟩
  exact Or.inr ⟨0, 10 ^ 17, by norm_num, by norm_num, by norm_num, by norm_num⟩

end Verif.AsciiFiles
