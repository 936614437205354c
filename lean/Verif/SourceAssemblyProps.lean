import Mathlib.Data.List.Basic
import Mathlib.Data.List.Nodup
import Verif.SourceFieldProps

/-! # The magnetization assembled from the options: property theorems (C168) -/

namespace Verif.Source

open Verif.Dense Verif.MatCoeffs Filter Topology

/-! ### Specification -/

/-- The keys the library knows. -/
noncomputable def knownMagnet (s : String) : Bool := (magnetDir s).isSome

/-- The options say: on elements with attribute `a` there is a magnet of material `mat`, magnetized as `src`. -/
def Lists (g : Groups) (mat src : String) (a : ℤ) : Prop :=
  ∃ srcs as, (mat, srcs) ∈ g ∧ (src, as) ∈ srcs ∧ a ∈ as

/-- The attributes of the sources the library knows, in the order of the options. -/
def knownAttrs (known : String → Bool) (g : Groups) : List ℤ :=
  g.flatMap fun e => e.2.flatMap fun s => if known s.1 then s.2 else []

/-! ### Lemmas -/

theorem addAttrs_spec (mat src : String) (as : List ℤ) (m : AttrMap) :
    ((addAttrs mat src as m).isSome ↔ as.Nodup ∧ ∀ a ∈ as, ∀ e ∈ m, e.1 ≠ a) ∧
    ∀ m', addAttrs mat src as m = some m' → ∀ e, e ∈ m' ↔ e ∈ m ∨ ∃ a ∈ as, e = (a, mat, src) := by
  induction as generalizing m with
  | nil => simp [addAttrs]
  | cons a as ih =>
    rw [addAttrs]
    by_cases h : m.any fun e => e.1 = a
    · rw [if_pos h]
      refine ⟨by
        simp only [Option.isSome_none, Bool.false_eq_true, false_iff]
        intro hh
        obtain ⟨e, he, hea⟩ := List.any_eq_true.1 h
        exact hh.2 a (by simp) e he (by simpa using hea), fun m' hm' => absurd hm' (by simp)⟩
    · rw [if_neg h]
      have hno : ∀ e ∈ m, e.1 ≠ a := fun e he hea => h (List.any_eq_true.2 ⟨e, he, by simpa using hea⟩)
      obtain ⟨h1, h2⟩ := ih ((a, mat, src) :: m)
      refine ⟨?_, fun m' hm' e => ?_⟩
      · rw [h1, List.nodup_cons]
        constructor
        · rintro ⟨hnd, hall⟩
          refine ⟨⟨fun ha => hall a ha (a, mat, src) (by simp) rfl, hnd⟩, fun b hb e he => ?_⟩
          rcases List.mem_cons.1 hb with rfl | hb
          · exact hno e he
          · exact hall b hb e (by simp [he])
        · rintro ⟨⟨hna, hnd⟩, hall⟩
          refine ⟨hnd, fun b hb e he => ?_⟩
          rcases List.mem_cons.1 he with rfl | he
          · rintro rfl; exact hna hb
          · exact hall b (by simp [hb]) e he
      · rw [h2 m' hm' e]
        constructor
        · rintro (h | ⟨b, hb, rfl⟩)
          · rcases List.mem_cons.1 h with rfl | h
            · exact Or.inr ⟨a, by simp, rfl⟩
            · exact Or.inl h
          · exact Or.inr ⟨b, by simp [hb], rfl⟩
        · rintro (h | ⟨b, hb, rfl⟩)
          · exact Or.inl (by simp [h])
          · rcases List.mem_cons.1 hb with rfl | hb
            · exact Or.inl (by simp)
            · exact Or.inr ⟨b, hb, rfl⟩

theorem addSources_spec (known : String → Bool) (mat : String) (srcs : List (String × List ℤ)) (m : AttrMap) :
    ((addSources known mat srcs m).isSome ↔ (srcs.flatMap fun s => if known s.1 then s.2 else []).Nodup ∧
      ∀ a ∈ (srcs.flatMap fun s => if known s.1 then s.2 else []), ∀ e ∈ m, e.1 ≠ a) ∧
    ∀ m', addSources known mat srcs m = some m' →
      ∀ e, e ∈ m' ↔ e ∈ m ∨ ∃ src as a, (src, as) ∈ srcs ∧ known src ∧ a ∈ as ∧ e = (a, mat, src) := by
  induction srcs generalizing m with
  | nil => simp [addSources]
  | cons s srcs ih =>
    obtain ⟨src, as⟩ := s
    rw [addSources]
    by_cases hk : known src
    · simp only [hk, if_true, List.flatMap_cons]
      obtain ⟨a1, a2⟩ := addAttrs_spec mat src as m
      cases hm : addAttrs mat src as m with
      | none =>
        rw [hm] at a1
        refine ⟨?_, fun m' h => absurd h (by simp)⟩
        simp only [Option.bind_none, Option.isSome_none, Bool.false_eq_true, false_iff] at a1 ⊢
        rintro ⟨h1, h2⟩
        exact a1 ⟨(List.nodup_append'.1 h1).1, fun a ha => h2 a (by simp [ha])⟩
      | some m1 =>
        rw [hm] at a1
        have a1' := a1.1 rfl
        have a2' := a2 m1 hm
        simp only [Option.bind_some]
        obtain ⟨b1, b2⟩ := ih m1
        refine ⟨?_, fun m' h e => ?_⟩
        · rw [b1, List.nodup_append']
          constructor
          · rintro ⟨h1, h2⟩
            refine ⟨⟨a1'.1, h1, fun a ha hb => h2 a hb (a, mat, src) ((a2' _).2 (Or.inr ⟨a, ha, rfl⟩)) rfl⟩, fun a ha e he => ?_⟩
            rcases List.mem_append.1 ha with ha | ha
            · exact a1'.2 a ha e he
            · exact h2 a ha e ((a2' e).2 (Or.inl he))
          · rintro ⟨⟨-, h1, hd⟩, h2⟩
            refine ⟨h1, fun a ha e he => ?_⟩
            rcases (a2' e).1 he with he | ⟨b, hb, rfl⟩
            · exact h2 a (List.mem_append.2 (Or.inr ha)) e he
            · rintro rfl; exact hd hb ha
        · rw [b2 m' h e, a2' e]
          constructor
          · rintro ((h | ⟨a, ha, rfl⟩) | ⟨s, as', a, h1, h2, h3, h4⟩)
            · exact Or.inl h
            · exact Or.inr ⟨src, as, a, by simp, hk, ha, rfl⟩
            · exact Or.inr ⟨s, as', a, by simp [h1], h2, h3, h4⟩
          · rintro (h | ⟨s, as', a, h1, h2, h3, h4⟩)
            · exact Or.inl (Or.inl h)
            · rcases List.mem_cons.1 h1 with h1 | h1
              · obtain ⟨rfl, rfl⟩ := Prod.mk.inj h1
                exact Or.inl (Or.inr ⟨a, h3, h4⟩)
              · exact Or.inr ⟨s, as', a, h1, h2, h3, h4⟩
    · obtain ⟨b1, b2⟩ := ih m
      simp only [hk, Bool.false_eq_true, if_false, List.flatMap_cons, List.nil_append, Option.bind_some]
      refine ⟨b1, fun m' h e => ?_⟩
      rw [b2 m' h e]
      constructor
      · rintro (h | ⟨s, as', a, h1, h2⟩)
        · exact Or.inl h
        · exact Or.inr ⟨s, as', a, by simp [h1], h2⟩
      · rintro (h | ⟨s, as', a, h1, h2⟩)
        · exact Or.inl h
        · rcases List.mem_cons.1 h1 with h1 | h1
          · obtain ⟨rfl, rfl⟩ := Prod.mk.inj h1
            exact absurd h2.1 hk
          · exact Or.inr ⟨s, as', a, h1, h2⟩

theorem addGroups_spec (known : String → Bool) (g : Groups) (m : AttrMap) :
    ((addGroups known g m).isSome ↔ (knownAttrs known g).Nodup ∧ ∀ a ∈ knownAttrs known g, ∀ e ∈ m, e.1 ≠ a) ∧
    ∀ m', addGroups known g m = some m' →
      ∀ e, e ∈ m' ↔ e ∈ m ∨ ∃ mat src a, Lists g mat src a ∧ known src ∧ e = (a, mat, src) := by
  induction g generalizing m with
  | nil => simp [addGroups, knownAttrs, Lists]
  | cons s g ih =>
    obtain ⟨mat, srcs⟩ := s
    rw [addGroups, show knownAttrs known ((mat, srcs) :: g) =
      (srcs.flatMap fun s => if known s.1 then s.2 else []) ++ knownAttrs known g from rfl]
    obtain ⟨a1, a2⟩ := addSources_spec known mat srcs m
    have hmem : ∀ a, (a ∈ srcs.flatMap fun s => if known s.1 then s.2 else []) ↔
        ∃ src as, (src, as) ∈ srcs ∧ known src ∧ a ∈ as := by
      intro a
      simp only [List.mem_flatMap, Prod.exists]
      constructor
      · rintro ⟨src, as, h1, h2⟩
        by_cases hk : known src
        · exact ⟨src, as, h1, hk, by simpa [hk] using h2⟩
        · simp [hk] at h2
      · rintro ⟨src, as, h1, hk, h2⟩
        exact ⟨src, as, h1, by simpa [hk] using h2⟩
    cases hm : addSources known mat srcs m with
    | none =>
      rw [hm] at a1
      refine ⟨?_, fun m' h => absurd h (by simp)⟩
      simp only [Option.bind_none, Option.isSome_none, Bool.false_eq_true, false_iff] at a1 ⊢
      rintro ⟨h1, h2⟩
      exact a1 ⟨(List.nodup_append'.1 h1).1, fun a ha => h2 a (List.mem_append.2 (Or.inl ha))⟩
    | some m1 =>
      rw [hm] at a1
      have a1' := a1.1 rfl
      have a2' := a2 m1 hm
      simp only [Option.bind_some]
      obtain ⟨b1, b2⟩ := ih m1
      refine ⟨?_, fun m' h e => ?_⟩
      · rw [b1, List.nodup_append']
        constructor
        · rintro ⟨h1, h2⟩
          refine ⟨⟨a1'.1, h1, fun a ha hb => ?_⟩, fun a ha e he => ?_⟩
          · obtain ⟨src, as, c1, c2, c3⟩ := (hmem a).1 ha
            exact h2 a hb (a, mat, src) ((a2' _).2 (Or.inr ⟨src, as, a, c1, c2, c3, rfl⟩)) rfl
          · rcases List.mem_append.1 ha with ha | ha
            · exact a1'.2 a ha e he
            · exact h2 a ha e ((a2' e).2 (Or.inl he))
        · rintro ⟨⟨-, h1, hd⟩, h2⟩
          refine ⟨h1, fun a ha e he => ?_⟩
          rcases (a2' e).1 he with he | ⟨src, as, b, c1, c2, c3, rfl⟩
          · exact h2 a (List.mem_append.2 (Or.inr ha)) e he
          · rintro rfl; exact hd ((hmem _).2 ⟨src, as, c1, c2, c3⟩) ha
      · rw [b2 m' h e, a2' e]
        constructor
        · rintro ((h | ⟨src, as, a, c1, c2, c3, rfl⟩) | ⟨mt, s, a, ⟨ss, as', h1, h1'⟩, h2⟩)
          · exact Or.inl h
          · exact Or.inr ⟨mat, src, a, ⟨srcs, as, by simp, c1, c3⟩, c2, rfl⟩
          · exact Or.inr ⟨mt, s, a, ⟨ss, as', by simp [h1], h1'⟩, h2⟩
        · rintro (h | ⟨mt, s, a, ⟨ss, as', h1, h1'⟩, h2⟩)
          · exact Or.inl (Or.inl h)
          · rcases List.mem_cons.1 h1 with h1 | h1
            · obtain ⟨rfl, rfl⟩ := Prod.mk.inj h1
              exact Or.inl (Or.inr ⟨s, as', a, h1'.1, h2.1, h1'.2, h2.2⟩)
            · exact Or.inr ⟨mt, s, a, ⟨ss, as', h1, h1'⟩, h2⟩

/-- The map has one entry per attribute. -/
theorem addAttrs_keys (mat src : String) (as : List ℤ) (m m' : AttrMap) (h : addAttrs mat src as m = some m')
    (hm : (m.map (·.1)).Nodup) : (m'.map (·.1)).Nodup := by
  induction as generalizing m with
  | nil => rw [addAttrs] at h; exact Option.some.inj h ▸ hm
  | cons a as ih =>
    rw [addAttrs] at h
    by_cases hh : m.any fun e => e.1 = a
    · rw [if_pos hh] at h; exact absurd h (by simp)
    · rw [if_neg hh] at h
      refine ih _ h ?_
      rw [List.map_cons, List.nodup_cons]
      refine ⟨fun ha => ?_, hm⟩
      obtain ⟨e, he, hea⟩ := List.mem_map.1 ha
      exact hh (List.any_eq_true.2 ⟨e, he, by simpa using hea⟩)

theorem addSources_keys (known : String → Bool) (mat : String) (srcs : List (String × List ℤ)) (m m' : AttrMap)
    (h : addSources known mat srcs m = some m') (hm : (m.map (·.1)).Nodup) : (m'.map (·.1)).Nodup := by
  induction srcs generalizing m with
  | nil => rw [addSources] at h; exact Option.some.inj h ▸ hm
  | cons s srcs ih =>
    obtain ⟨src, as⟩ := s
    rw [addSources] at h
    by_cases hk : known src
    · simp only [hk, if_true] at h
      obtain ⟨m1, h1, h2⟩ := Option.bind_eq_some_iff.1 h
      exact ih m1 h2 (addAttrs_keys mat src as m m1 h1 hm)
    · simp only [hk, Bool.false_eq_true, if_false, Option.bind_some] at h
      exact ih m h hm

theorem addGroups_keys (known : String → Bool) (g : Groups) (m m' : AttrMap) (h : addGroups known g m = some m')
    (hm : (m.map (·.1)).Nodup) : (m'.map (·.1)).Nodup := by
  induction g generalizing m with
  | nil => rw [addGroups] at h; exact Option.some.inj h ▸ hm
  | cons s g ih =>
    rw [addGroups] at h
    obtain ⟨m1, h1, h2⟩ := Option.bind_eq_some_iff.1 h
    exact ih m1 h2 (addSources_keys known s.1 s.2 m m1 h1 hm)

theorem find_mem (m : AttrMap) (hm : (m.map (·.1)).Nodup) (a : ℤ) (mat src : String) (h : (a, mat, src) ∈ m) :
    find m a = some (mat, src) := by
  induction m with
  | nil => simp at h
  | cons e m ih =>
    rw [List.map_cons, List.nodup_cons] at hm
    by_cases he : e.1 = a
    · have : e = (a, mat, src) := by
        rcases List.mem_cons.1 h with h | h
        · exact h.symm
        · exact absurd (List.mem_map.2 ⟨_, h, rfl⟩) (he ▸ hm.1)
      simp [find, this]
    · have h' : (a, mat, src) ∈ m := by
        rcases List.mem_cons.1 h with h | h
        · exact absurd (by rw [← h]) he
        · exact h
      have := ih hm.2 h'
      simpa [find, List.find?_cons, he] using this

theorem find_none (m : AttrMap) (a : ℤ) (h : ∀ e ∈ m, e.1 ≠ a) : find m a = none := by
  unfold find
  rw [Option.map_eq_none_iff, List.find?_eq_none]
  intro e he
  simpa using h e he

/-! ### C168 -/

/-- **C168** The options are accepted exactly when no attribute is given to two (known) magnets. -/
theorem C168_accept (g : Groups) : (addGroups knownMagnet g []).isSome ↔ (knownAttrs knownMagnet g).Nodup := by
  rw [(addGroups_spec knownMagnet g []).1]
  simp

/-- **C168** When they are accepted, on every element the magnetization is the one the options ask for: the remnant flux of
the listed material at the local temperature, in the listed direction at the local point; it is zero on every other element. -/
theorem C168_value (lib : String → Remnant) (g : Groups) (m : AttrMap) (h : addGroups knownMagnet g [] = some m)
    (a : ℤ) (x : V3) (T : ℝ) :
    (∀ mat src f, Lists g mat src a → magnetDir src = some f →
      evalMagnet lib m a x T = (f x).map fun d i => d i * (lib mat).eval T) ∧
    ((¬ ∃ mat src, Lists g mat src a ∧ (magnetDir src).isSome) → evalMagnet lib m a x T = some 0) := by
  have hk := addGroups_keys knownMagnet g [] m h (by simp)
  have hs := (addGroups_spec knownMagnet g []).2 m h
  refine ⟨fun mat src f hl hf => ?_, fun hno => ?_⟩
  · have hmem : (a, mat, src) ∈ m := (hs _).2 (Or.inr ⟨mat, src, a, hl, by simp [knownMagnet, hf], rfl⟩)
    simp [evalMagnet, find_mem m hk a mat src hmem, hf]
  · have : find m a = none := find_none m a fun e he hea => by
      rcases (hs e).1 he with h | ⟨mat, src, b, hl, hkn, rfl⟩
      · simp at h
      · simp only at hea; subst hea; exact hno ⟨mat, src, hl, hkn⟩
    simp [evalMagnet, this]

/-- **C168** Its derivative with respect to the temperature is exact on every element. -/
theorem C168_derivative (lib : String → Remnant) (m : AttrMap) (a : ℤ) (x M : V3) (T : ℝ)
    (h : evalMagnet lib m a x T = some M) :
    ∃ (D : V3) (J : ℝ → V3), evalMagnetDeriv lib m a x T = some D ∧ (∀ T', evalMagnet lib m a x T' = some (J T')) ∧
      ∀ i, HasDerivAt (fun T' => J T' i) (D i) T := by
  unfold evalMagnet at h
  unfold evalMagnetDeriv
  simp only [evalMagnet]
  cases hf : find m a with
  | none => exact ⟨0, fun _ => 0, rfl, fun _ => rfl, fun i => hasDerivAt_const _ _⟩
  | some e =>
    obtain ⟨mat, src⟩ := e
    rw [hf] at h
    simp only at h ⊢
    cases hd : (magnetDir src).bind fun f => f x with
    | none => rw [hd] at h; exact absurd h (by simp)
    | some d =>
      refine ⟨_, fun T' i => d i * (lib mat).eval T', rfl, fun _ => rfl, fun i => ?_⟩
      have := ((((hasDerivAt_id' T).sub_const (lib mat).Tref).const_mul ((lib mat).alpha / 100)).const_add 1).const_mul
        (lib mat).BrRef
      refine (this.const_mul (d i)).congr_deriv ?_
      simp only [Remnant.d, Remnant.eval]
      ring

/-- **C168, violation** A misspelt direction is not reported: the magnet is silently left out, although its elements are
still among those the load is integrated over. -/
theorem C168_misspelt_false (lib : String → Remnant) (x : V3) (T : ℝ) :
    let g : Groups := [("Nd2Fe14B", [("North", [5]), ("south", [6])])]
    ∃ m, addGroups knownMagnet g [] = some m ∧ evalMagnet lib m 5 x T = some 0 ∧ 5 ∈ loadAttrs g := by
  intro g
  have h5 : knownMagnet "North" = false := by simp [knownMagnet, magnetDir]
  have h6 : knownMagnet "south" = true := by simp [knownMagnet, magnetDir]
  refine ⟨[(6, "Nd2Fe14B", "south")], ?_, ?_, ?_⟩
  · simp [g, addGroups, addSources, addAttrs, h5, h6]
  · simp [evalMagnet, find]
  · simp [g, loadAttrs]

/-- **C168, violation** The load of the three-dimensional problem evaluates the magnetization without the temperature field,
i.e. at temperature zero: it is the magnetization of the material at the local temperature only if the magnet's remnant flux
does not depend on it; with the default material data it is 1.878… T in place of 1.39 T at the reference temperature. -/
theorem C168_stateless_false :
    (∀ (lib : String → Remnant) m a x, evalMagnetStateless lib m a x = evalMagnet lib m a x 0) ∧
    (∀ c : Remnant, c.BrRef ≠ 0 → ∀ T, c.eval 0 = c.eval T ↔ c.alpha = 0 ∨ T = 0) ∧
    let c := Remnant.construct fun _ => none
    c.eval c.Tref = 1.39 ∧ 1.878 < c.eval 0 ∧ c.eval 0 < 1.879 := by
  refine ⟨fun _ _ _ _ => rfl, fun c hc T => ?_, ?_, ?_, ?_⟩
  · simp only [Remnant.eval]
    rw [mul_right_inj' hc, add_right_inj]
    constructor
    · intro h
      have h' : c.alpha * T = 0 := by linarith
      rcases mul_eq_zero.1 h' with h | h
      · exact Or.inl h
      · exact Or.inr h
    · rintro (h | h)
      · rw [h]; ring
      · rw [h]
  · simp [Remnant.construct, Remnant.eval]
  · norm_num [Remnant.construct, Remnant.eval]
  · norm_num [Remnant.construct, Remnant.eval]

/-- Two materials, three magnets. -/
example : ∃ m, addGroups knownMagnet [("A", [("north", [1, 2]), ("south", [3])]), ("B", [("x", [7])])] [] = some m ∧
    Lists [("A", [("north", [1, 2]), ("south", [3])]), ("B", [("x", [7])])] "A" "north" 2 ∧
    find m 2 = some ("A", "north") := by
  have h1 : knownMagnet "north" = true := by simp [knownMagnet, magnetDir]
  have h2 : knownMagnet "south" = true := by simp [knownMagnet, magnetDir]
  have h3 : knownMagnet "x" = true := by simp [knownMagnet, magnetDir]
  refine ⟨[(7, "B", "x"), (3, "A", "south"), (2, "A", "north"), (1, "A", "north")], ?_, ?_, ?_⟩
  · simp [addGroups, addSources, addAttrs, h1, h2, h3]
  · exact ⟨[("north", [1, 2]), ("south", [3])], [1, 2], by simp, by simp, by simp⟩
  · simp [find]

end Verif.Source
