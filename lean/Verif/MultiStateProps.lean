/-
C201: coefficients of two and three states that differ from material to material.
-/
import Verif.MultiState
import Verif.MatCoeffProps

namespace Verif.MultiState
variable {P D : Type}

/-! ### Specification -/

/-- The methods of a two-state coefficient describe, at one point and one pair of states, one function of
the states and its derivatives. -/
structure Two.ExactAt (c : Two P D) (a : ℤ) (p : P) (s1 s2 : ℝ) : Prop where
  d1 : HasDerivAt (fun s => c.eval a p s s2) (c.d1 a p s1 s2) s1
  d2 : HasDerivAt (fun s => c.eval a p s1 s) (c.d2 a p s1 s2) s2
  d11 : HasDerivAt (fun s => c.d1 a p s s2) (c.d11 a p s1 s2) s1
  d22 : HasDerivAt (fun s => c.d2 a p s1 s) (c.d22 a p s1 s2) s2
  d12 : HasDerivAt (fun s => c.d1 a p s1 s) (c.d12 a p s1 s2) s2
  d21 : HasDerivAt (fun s => c.d2 a p s s2) (c.d21 a p s1 s2) s1

/-- The same for three states. -/
structure Three.ExactAt (c : Three P D) (a : ℤ) (p : P) (s1 s2 s3 : ℝ) : Prop where
  d1 : HasDerivAt (fun s => c.eval a p s s2 s3) (c.d1 a p s1 s2 s3) s1
  d2 : HasDerivAt (fun s => c.eval a p s1 s s3) (c.d2 a p s1 s2 s3) s2
  d3 : HasDerivAt (fun s => c.eval a p s1 s2 s) (c.d3 a p s1 s2 s3) s3
  d11 : HasDerivAt (fun s => c.d1 a p s s2 s3) (c.d11 a p s1 s2 s3) s1
  d22 : HasDerivAt (fun s => c.d2 a p s1 s s3) (c.d22 a p s1 s2 s3) s2
  d33 : HasDerivAt (fun s => c.d3 a p s1 s2 s) (c.d33 a p s1 s2 s3) s3
  d12 : HasDerivAt (fun s => c.d1 a p s1 s s3) (c.d12 a p s1 s2 s3) s2
  d13 : HasDerivAt (fun s => c.d1 a p s1 s2 s) (c.d13 a p s1 s2 s3) s3
  d23 : HasDerivAt (fun s => c.d2 a p s1 s2 s) (c.d23 a p s1 s2 s3) s3
  d21 : HasDerivAt (fun s => c.d2 a p s s2 s3) (c.d21 a p s1 s2 s3) s1
  d31 : HasDerivAt (fun s => c.d3 a p s s2 s3) (c.d31 a p s1 s2 s3) s1
  d32 : HasDerivAt (fun s => c.d3 a p s1 s s3) (c.d32 a p s1 s2 s3) s2

/-- A program that creates a mesh dependent coefficient and registers materials one after the other. -/
def build (dflt : Option (Coeff P D)) (regs : List (ℤ × Coeff P D)) : Option (Mesh P D) :=
  regs.foldlM (fun m r => m.add r.1 r.2) ⟨[], dflt⟩

/-- `c` is what the user asked to be used on elements of attribute `a`: the material registered for it, or
else the default. -/
def Governs (dflt : Option (Coeff P D)) (regs : List (ℤ × Coeff P D)) (a : ℤ) (c : Coeff P D) : Prop :=
  (a, c) ∈ regs ∨ ((∀ c', (a, c') ∉ regs) ∧ dflt = some c)

/-- The function of two states a material stands for: its own if it is a two-state coefficient, otherwise
the constant given by `Eval` without states. -/
def value2 (c : Coeff P D) (a : ℤ) (p : P) (s1 s2 : ℝ) : ℝ :=
  match c with
  | .two t => t.eval a p s1 s2
  | .plain e _ => e a p
  | .three t => t.eval0 a p

/-- The same for three states. -/
def value3 (c : Coeff P D) (a : ℤ) (p : P) (s1 s2 s3 : ℝ) : ℝ :=
  match c with
  | .three t => t.eval a p s1 s2 s3
  | .plain e _ => e a p
  | .two t => t.eval0 a p

/-! ### Registration -/

theorem find_append (l : List (ℤ × Coeff P D)) (k : ℤ) (c : Coeff P D) (a : ℤ) :
    find (l ++ [(k, c)]) a = (find l a).or (if k = a then some c else none) := by
  induction l with
  | nil => simp [find]
  | cons x l ih =>
    obtain ⟨k', c'⟩ := x
    simp only [List.cons_append, find]
    split_ifs <;> simp_all

theorem find_mem (l : List (ℤ × Coeff P D)) (a : ℤ) (c : Coeff P D) (h : find l a = some c) : (a, c) ∈ l := by
  induction l with
  | nil => simp [find] at h
  | cons x l ih =>
    obtain ⟨k, c'⟩ := x
    simp only [find] at h
    split_ifs at h with hk
    · cases h; subst hk; simp
    · exact List.mem_cons_of_mem _ (ih h)

theorem find_none (l : List (ℤ × Coeff P D)) (a : ℤ) : find l a = none ↔ ∀ c, (a, c) ∉ l := by
  induction l with
  | nil => simp [find]
  | cons x l ih =>
    obtain ⟨k, c'⟩ := x
    simp only [find]
    split_ifs with hk
    · subst hk
      simp only [false_iff, not_forall, not_not]
      exact ⟨c', by simp⟩
    · rw [ih]
      constructor
      · intro h c hc
        rcases List.mem_cons.1 hc with e | e
        · exact hk (Prod.mk.inj e).1.symm
        · exact h c e
      · exact fun h c hc => h c (List.mem_cons_of_mem _ hc)

theorem build_from (regs : List (ℤ × Coeff P D)) : ∀ (m m' : Mesh P D),
    regs.foldlM (fun m r => m.add r.1 r.2) m = some m' →
    m'.dflt = m.dflt ∧ m'.map = m.map ++ regs ∧
      ((m.map.map Prod.fst).Nodup → (m'.map.map Prod.fst).Nodup) := by
  induction regs with
  | nil => intro m m' h; simp at h; subst h; simp
  | cons r l ih =>
    intro m m' h
    obtain ⟨k, c⟩ := r
    rw [List.foldlM_cons] at h
    unfold Mesh.add at h
    cases hf : find m.map k with
    | some c' => simp [hf] at h
    | none =>
      rw [hf] at h
      obtain ⟨e1, e2, e3⟩ := ih _ _ h
      refine ⟨e1, by rw [e2]; simp, fun hn => e3 ?_⟩
      simp only [List.map_append, List.map_cons, List.map_nil]
      rw [List.nodup_append]
      refine ⟨hn, by simp, ?_⟩
      intro x hx y hy hxy
      simp only [List.mem_singleton] at hy
      obtain ⟨⟨k', c'⟩, hm, hk⟩ := List.mem_map.1 hx
      simp only at hk
      exact (find_none _ _).1 hf c' (by rw [← hy, ← hxy, ← hk]; exact hm)

theorem find_of_mem (l : List (ℤ × Coeff P D)) (hn : (l.map Prod.fst).Nodup) (a : ℤ) (c : Coeff P D)
    (h : (a, c) ∈ l) : find l a = some c := by
  induction l with
  | nil => simp at h
  | cons x l ih =>
    obtain ⟨k, c'⟩ := x
    simp only [List.map_cons, List.nodup_cons] at hn
    simp only [find]
    rcases List.mem_cons.1 h with e | e
    · cases e; simp
    · rw [if_neg, ih hn.2 e]
      rintro rfl
      exact hn.1 (List.mem_map.2 ⟨_, e, rfl⟩)

/-- **C201** Registering succeeds exactly when no attribute is registered twice. -/
theorem C201_duplicates (dflt : Option (Coeff P D)) (regs : List (ℤ × Coeff P D)) :
    (build dflt regs).isSome ↔ (regs.map Prod.fst).Nodup := by
  suffices h : ∀ m : Mesh P D, (m.map.map Prod.fst).Nodup →
      ((regs.foldlM (fun (m : Mesh P D) r => m.add r.1 r.2) m).isSome ↔ ((m.map ++ regs).map Prod.fst).Nodup) by
    simpa [build] using h ⟨[], dflt⟩ (by simp)
  induction regs with
  | nil => intro m hm; simpa using hm
  | cons r l ih =>
    intro m hm
    obtain ⟨k, c⟩ := r
    rw [List.foldlM_cons]
    unfold Mesh.add
    cases hf : find m.map k with
    | some c' =>
      have hk : k ∈ m.map.map Prod.fst := List.mem_map.2 ⟨_, find_mem _ _ _ hf, rfl⟩
      simp only [Option.bind_eq_bind, Option.bind_none, Option.isSome_none, Bool.false_eq_true, false_iff]
      intro hn
      simp only [List.map_append, List.map_cons] at hn
      exact (List.nodup_append.1 hn).2.2 _ hk k (by simp) rfl
    | none =>
      have hk : k ∉ m.map.map Prod.fst := by
        intro hk
        obtain ⟨⟨k', c'⟩, hmem, e⟩ := List.mem_map.1 hk
        simp only at e
        subst e
        exact (find_none _ _).1 hf c' hmem
      have hn' : ((m.map ++ [(k, c)]).map Prod.fst).Nodup := by
        simp only [List.map_append, List.map_cons, List.map_nil]
        rw [List.nodup_append]
        exact ⟨hm, by simp, fun x hx y hy e => hk (by simp at hy; rw [← hy, ← e]; exact hx)⟩
      have := ih { m with map := m.map ++ [(k, c)] } hn'
      rw [List.append_assoc] at this
      exact this

theorem governs_find {dflt : Option (Coeff P D)} {regs : List (ℤ × Coeff P D)} {m : Mesh P D}
    (hb : build dflt regs = some m) {a : ℤ} {c : Coeff P D} (hg : Governs dflt regs a c) :
    find m.map a = some c ∨ (find m.map a = none ∧ m.dflt = some c) := by
  obtain ⟨e1, e2, e3⟩ := build_from regs _ _ hb
  simp only [List.nil_append] at e2
  rcases hg with h | ⟨h1, h2⟩
  · left
    exact find_of_mem _ (e3 (by simp)) _ _ (by rw [e2]; exact h)
  · right
    exact ⟨(find_none _ _).2 (by rw [e2]; exact h1), by rw [e1]; exact h2⟩

theorem ungoverned_find {dflt : Option (Coeff P D)} {regs : List (ℤ × Coeff P D)} {m : Mesh P D}
    (hb : build dflt regs = some m) {a : ℤ} (hg : ∀ c, ¬ Governs dflt regs a c) :
    find m.map a = none ∧ m.dflt = none := by
  obtain ⟨e1, e2, -⟩ := build_from regs _ _ hb
  simp only [List.nil_append] at e2
  have h1 : ∀ c, (a, c) ∉ regs := fun c hc => hg c (Or.inl hc)
  refine ⟨(find_none _ _).2 (by rw [e2]; exact h1), ?_⟩
  rw [e1]
  cases hd : dflt with
  | none => rfl
  | some c => exact absurd (Or.inr ⟨h1, hd⟩) (hg c)

/-! ### Values -/

/-- **C201** On every element the coefficient is that of the material registered for the element's
attribute, or the default; without either it is zero. -/
theorem C201_value (dflt : Option (Coeff P D)) (regs : List (ℤ × Coeff P D)) (m : Mesh P D)
    (hb : build dflt regs = some m) (a : ℤ) (p : P) (s1 s2 s3 : ℝ) :
    (∀ c, Governs dflt regs a c → m.asTwo.eval a p s1 s2 = value2 c a p s1 s2 ∧
      m.asThree.eval a p s1 s2 s3 = value3 c a p s1 s2 s3 ∧ m.asTwo.eval0 a p = c.eval0 a p ∧
      m.asThree.eval0 a p = c.eval0 a p) ∧
    ((∀ c, ¬ Governs dflt regs a c) → m.asTwo.eval a p s1 s2 = 0 ∧ m.asThree.eval a p s1 s2 s3 = 0 ∧
      m.asTwo.eval0 a p = 0 ∧ m.asThree.eval0 a p = 0) := by
  constructor
  · intro c hg
    rcases governs_find hb hg with h | ⟨h, h'⟩ <;> cases c <;>
      simp [Mesh.asTwo, Mesh.asThree, Mesh.two_eval, Mesh.three_eval, Mesh.eval0, value2, value3, Coeff.eval0, *]
  · intro hg
    obtain ⟨h, h'⟩ := ungoverned_find hb hg
    simp [Mesh.asTwo, Mesh.asThree, Mesh.two_eval, Mesh.three_eval, Mesh.eval0, *]

/-- **C201** `Eval` without states is `Eval` at zero states, provided this holds for the materials. -/
theorem C201_no_states (dflt : Option (Coeff P D)) (regs : List (ℤ × Coeff P D)) (m : Mesh P D)
    (hb : build dflt regs = some m) (a : ℤ) (p : P)
    (h2 : ∀ t : Two P D, Governs dflt regs a (.two t) → t.eval0 a p = t.eval a p 0 0)
    (h3 : ∀ t : Three P D, Governs dflt regs a (.three t) → t.eval0 a p = t.eval a p 0 0 0) :
    m.asTwo.eval0 a p = m.asTwo.eval a p 0 0 ∧ m.asThree.eval0 a p = m.asThree.eval a p 0 0 0 := by
  by_cases hg : ∃ c, Governs dflt regs a c
  · obtain ⟨c, hg⟩ := hg
    obtain ⟨e1, e2, e3, e4⟩ := (C201_value dflt regs m hb a p 0 0 0).1 c hg
    rw [e1, e2, e3, e4]
    cases c with
    | plain e r => exact ⟨rfl, rfl⟩
    | two t => exact ⟨h2 t hg, rfl⟩
    | three t => exact ⟨rfl, h3 t hg⟩
  · push Not at hg
    obtain ⟨e1, e2, e3, e4⟩ := (C201_value dflt regs m hb a p 0 0 0).2 hg
    rw [e1, e2, e3, e4]; exact ⟨rfl, rfl⟩

/-! ### Derivatives -/

/-- **C201** Every derivative method of the mesh dependent two-state coefficient is the derivative it names
of the coefficient's value, wherever this is true of the material of the element. -/
theorem C201_two_derivatives (dflt : Option (Coeff P D)) (regs : List (ℤ × Coeff P D)) (m : Mesh P D)
    (hb : build dflt regs = some m) (a : ℤ) (p : P) (s1 s2 : ℝ)
    (h : ∀ t : Two P D, Governs dflt regs a (.two t) → t.ExactAt a p s1 s2) :
    m.asTwo.ExactAt a p s1 s2 := by
  by_cases hg : ∃ c, Governs dflt regs a c
  · obtain ⟨c, hg⟩ := hg
    rcases governs_find hb hg with hf | ⟨hf, hd⟩ <;> cases c with
    | plain e r =>
      constructor <;> simp [Mesh.asTwo, Mesh.two_eval, Mesh.two_d1, Mesh.two_d2, Mesh.two_d11, Mesh.two_d22,
        Mesh.two_d12, Mesh.two_d21, *, hasDerivAt_const]
    | three t =>
      constructor <;> simp [Mesh.asTwo, Mesh.two_eval, Mesh.two_d1, Mesh.two_d2, Mesh.two_d11, Mesh.two_d22,
        Mesh.two_d12, Mesh.two_d21, *, hasDerivAt_const]
    | two t =>
      obtain ⟨h1, h2, h3, h4, h5, h6⟩ := h t hg
      constructor <;> simp [Mesh.asTwo, Mesh.two_eval, Mesh.two_d1, Mesh.two_d2, Mesh.two_d11, Mesh.two_d22,
        Mesh.two_d12, Mesh.two_d21, *]
  · push Not at hg
    obtain ⟨hf, hd⟩ := ungoverned_find hb hg
    constructor <;> simp [Mesh.asTwo, Mesh.two_eval, Mesh.two_d1, Mesh.two_d2, Mesh.two_d11, Mesh.two_d22,
      Mesh.two_d12, Mesh.two_d21, *, hasDerivAt_const]

/-- **C201** The same for three states and the twelve derivative methods. -/
theorem C201_three_derivatives (dflt : Option (Coeff P D)) (regs : List (ℤ × Coeff P D)) (m : Mesh P D)
    (hb : build dflt regs = some m) (a : ℤ) (p : P) (s1 s2 s3 : ℝ)
    (h : ∀ t : Three P D, Governs dflt regs a (.three t) → t.ExactAt a p s1 s2 s3) :
    m.asThree.ExactAt a p s1 s2 s3 := by
  by_cases hg : ∃ c, Governs dflt regs a c
  · obtain ⟨c, hg⟩ := hg
    rcases governs_find hb hg with hf | ⟨hf, hd⟩ <;> cases c with
    | plain e r =>
      constructor <;> simp [Mesh.asThree, Mesh.three_eval, Mesh.three_d1, Mesh.three_d2, Mesh.three_d3,
        Mesh.three_d11, Mesh.three_d22, Mesh.three_d33, Mesh.three_d12, Mesh.three_d13, Mesh.three_d23,
        Mesh.three_d21, Mesh.three_d31, Mesh.three_d32, *, hasDerivAt_const]
    | two t =>
      constructor <;> simp [Mesh.asThree, Mesh.three_eval, Mesh.three_d1, Mesh.three_d2, Mesh.three_d3,
        Mesh.three_d11, Mesh.three_d22, Mesh.three_d33, Mesh.three_d12, Mesh.three_d13, Mesh.three_d23,
        Mesh.three_d21, Mesh.three_d31, Mesh.three_d32, *, hasDerivAt_const]
    | three t =>
      obtain ⟨h1, h2, h3, h4, h5, h6, h7, h8, h9, h10, h11, h12⟩ := h t hg
      constructor <;> simp [Mesh.asThree, Mesh.three_eval, Mesh.three_d1, Mesh.three_d2, Mesh.three_d3,
        Mesh.three_d11, Mesh.three_d22, Mesh.three_d33, Mesh.three_d12, Mesh.three_d13, Mesh.three_d23,
        Mesh.three_d21, Mesh.three_d31, Mesh.three_d32, *]
  · push Not at hg
    obtain ⟨hf, hd⟩ := ungoverned_find hb hg
    constructor <;> simp [Mesh.asThree, Mesh.three_eval, Mesh.three_d1, Mesh.three_d2, Mesh.three_d3,
        Mesh.three_d11, Mesh.three_d22, Mesh.three_d33, Mesh.three_d12, Mesh.three_d13, Mesh.three_d23,
        Mesh.three_d21, Mesh.three_d31, Mesh.three_d32, *, hasDerivAt_const]

/-- **C201** The wrapping classes (demagnetization constraint, CAL2 coefficients) behave as the mesh
dependent coefficient they own. -/
theorem C201_wrappers (m : Mesh P D) : demagWrapper m = m.asTwo ∧ cal2Wrapper m = m.asThree := ⟨rfl, rfl⟩

/-- **C201** Reverse mode: only the material of the element contributes to the node derivatives, and
without a material they are left alone. -/
theorem C201_reverse (dflt : Option (Coeff P D)) (regs : List (ℤ × Coeff P D)) (m : Mesh P D)
    (hb : build dflt regs = some m) (a : ℤ) (p : P) (q : ℝ) (M : D) :
    (∀ c, Governs dflt regs a c → m.asTwo.rev q a p M = c.rev q a p M ∧ m.asThree.rev q a p M = c.rev q a p M) ∧
    ((∀ c, ¬ Governs dflt regs a c) → m.asTwo.rev q a p M = M ∧ m.asThree.rev q a p M = M) := by
  constructor
  · intro c hg
    rcases governs_find hb hg with h | ⟨h, h'⟩ <;> simp [Mesh.asTwo, Mesh.asThree, Mesh.rev, *]
  · intro hg
    obtain ⟨h, h'⟩ := ungoverned_find hb hg
    simp [Mesh.asTwo, Mesh.asThree, Mesh.rev, *]

/-- A magnet material as a two-state coefficient of the flux density and the temperature. -/
noncomputable def magnet (k : MatCoeffs.Demag) : Two P D where
  eval0 _ _ := k.eval 0 0
  eval _ _ := k.eval
  d1 _ _ := k.dB
  d2 _ _ := k.dT
  d11 _ _ := k.dBB
  d22 _ _ := k.dTT
  d12 _ _ := k.dBT
  d21 _ _ := k.dBT
  rev _ _ _ M := M

/-- **C201** For the demagnetization constraint of a machine with magnets of any materials, all
derivatives are exact on every element where the constraint is defined. -/
theorem C201_demag (mats : List (ℤ × MatCoeffs.Demag)) (m : Mesh P D)
    (hb : build (some (.plain (fun _ _ => 0) fun _ _ _ M => M)) (mats.map fun x => (x.1, .two (magnet x.2))) = some m)
    (a : ℤ) (p : P) (B T : ℝ)
    (h : ∀ k, (a, k) ∈ mats → k.Bknee T ≠ k.Br T ∧ k.Bknee T ≠ 0 ∧ k.Br0 ≠ 0) :
    (demagWrapper m).ExactAt a p B T ∧
      (∀ k, (a, k) ∈ mats → (demagWrapper m).eval a p B T = k.upperLine B T - k.lowerLine B T) ∧
      ((∀ k, (a, k) ∉ mats) → (demagWrapper m).eval a p B T = 0) := by
  refine ⟨?_, ?_, ?_⟩
  · refine C201_two_derivatives _ _ m hb a p B T ?_
    intro t hg
    rcases hg with hm | ⟨-, hd⟩
    · obtain ⟨⟨a', k⟩, hk, e⟩ := List.mem_map.1 hm
      cases e
      obtain ⟨h1, h2, h3⟩ := h k hk
      obtain ⟨x1, x2, x3, x4, x5, x6⟩ := MatCoeffs.C141_derivatives k B T h1 h2 h3
      exact ⟨x1, x2, x3, x6, x4, x5⟩
    · simp at hd
  · intro k hk
    obtain ⟨h1, h2, -⟩ := h k hk
    have := ((C201_value _ _ m hb a p B T 0).1 (.two (magnet k)) (Or.inl (List.mem_map.2 ⟨_, hk, rfl⟩))).1
    exact this.trans (MatCoeffs.C141_value k B T h1 h2).1
  · intro hk
    exact ((C201_value _ _ m hb a p B T 0).1 (.plain (fun _ _ => 0) fun _ _ _ M => M)
      (Or.inr ⟨by rintro c' hc; obtain ⟨⟨a', k⟩, hk', e⟩ := List.mem_map.1 hc
                  obtain ⟨rfl, -⟩ := Prod.mk.inj e; exact hk k hk', rfl⟩)).1

/-- The hypotheses are met: two magnets and steel; at attribute 2 the constraint is that of the second
magnet, and the build succeeds. -/
example : ∃ (m : Mesh Unit Unit) (mats : List (ℤ × MatCoeffs.Demag)),
    build (some (.plain (fun _ _ => 0) fun _ _ _ M => M)) (mats.map fun x => (x.1, .two (magnet x.2))) = some m ∧
    mats.length = 2 ∧ ∃ k, (2, k) ∈ mats ∧ k.Bknee 300 ≠ k.Br 300 ∧ k.Bknee 300 ≠ 0 ∧ k.Br0 ≠ 0 := by
  obtain ⟨k1, hk1⟩ : ∃ k : MatCoeffs.Demag, k = ⟨293, -1/10, 1, -1/2, -1000, 1/1000, 0, 1, -700⟩ := ⟨_, rfl⟩
  refine ⟨_, [(1, k1), (2, k1)], rfl, rfl, k1, by simp, ?_⟩
  subst hk1
  norm_num [MatCoeffs.Demag.Bknee, MatCoeffs.Demag.Br]

end Verif.MultiState
