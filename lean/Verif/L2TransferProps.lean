import Verif.L2Transfer
import Verif.CurlMagProps
import Verif.MagSourceProps

/-!
Properties C158, C159: transfer of the flux density and its magnitude to a discontinuous field, and its reverse
products.
-/

namespace Verif.L2Transfer
open Finset Verif.Sbp Verif.Dense Verif.Diffusion Verif.Force Verif.CommonInteg Verif.Inviscid

set_option linter.unusedSimpArgs false
set_option linter.unusedSectionVars false

variable {ns no dim vd m N M X : ℕ}

/-! ### Specification -/

/-- Specification: a discontinuous output space.  Every output dof belongs to one node and component of one element. -/
def Discontinuous (es : List (Elem dim vd N M X)) : Prop :=
  es.Pairwise (fun e e' => ∀ k < vd * e.no, ∀ k' < vd * e'.no, e.odof k ≠ e'.odof k') ∧
  ∀ e ∈ es, ∀ k < vd * e.no, ∀ k' < vd * e.no, e.odof k = e.odof k' → k = k'

/-- Specification: the output dof of component `j` at node `i` of an element. -/
def Elem.dof (e : Elem dim vd N M X) (i : ℕ) (j : Fin vd) : Fin M := e.odof (j * e.no + i)

/-- Specification: nodal basis.  At its own node `i` an output shape function is one, the others zero. -/
def Nodal (pt : ℕ → TPt ns no dim) : Prop := ∀ i < no, ∀ a : Fin no, (pt i).oshape a = if (a : ℕ) = i then 1 else 0

/-- Specification: curl of `A_z e_z` from the gradient of `A_z`. -/
def curlz (g : Vec 2) : Vec 2 := ![g 1, -g 0]

/-! ### Values -/

theorem foldl_set (v : Vec vd) (no i i' : ℕ) (hi : i < no) (hi' : i' < no) (out : ℕ → ℝ) (j : ℕ) :
    Fin.foldl vd (fun out j => setAt (j * no + i) (v j) out) out (j * no + i') =
      if h : j < vd ∧ i' = i then v ⟨j, h.1⟩ else out (j * no + i') := by
  induction vd with
  | zero => rw [dif_neg (by omega)]; rfl
  | succ vd ih =>
    rw [Fin.foldl_succ_last]
    unfold setAt
    simp only [Fin.val_last, Fin.val_castSucc]
    have key : j * no + i' = vd * no + i ↔ j = vd ∧ i' = i := by
      constructor
      · intro h
        rcases lt_trichotomy j vd with hlt | rfl | hgt
        · exfalso
          have : (j + 1) * no ≤ vd * no := Nat.mul_le_mul_right _ hlt
          rw [add_mul] at this; omega
        · omega
        · exfalso
          have : (vd + 1) * no ≤ j * no := Nat.mul_le_mul_right _ hgt
          rw [add_mul] at this; omega
      · rintro ⟨rfl, rfl⟩; rfl
    have ih' := ih (fun j => v j.castSucc)
    unfold setAt at ih'
    by_cases hk : j * no + i' = vd * no + i
    · rw [if_pos hk]
      obtain ⟨rfl, rfl⟩ := key.1 hk
      rw [dif_pos ⟨by omega, rfl⟩]; rfl
    · rw [if_neg hk, ih']
      by_cases h : j < vd ∧ i' = i
      · rw [dif_pos h, dif_pos ⟨by omega, h.2⟩]; rfl
      · rw [dif_neg h, dif_neg]
        rintro ⟨h1, h2⟩
        apply hk; rw [key]
        exact ⟨by by_contra hne; exact h ⟨by omega, h2⟩, h2⟩

theorem apply_loop (op : Operation ns no dim vd) (pt : ℕ → TPt ns no dim) (u : Vec ns) (out : ℕ → ℝ) (K i : ℕ)
    (hK : K ≤ no) (hi : i < no) (j : Fin vd) :
    forN K (fun i out => Fin.foldl vd (fun out j => setAt (j * no + i) (op.val (pt i) u j) out) out) out (j * no + i) =
      if i < K then op.val (pt i) u j else out (j * no + i) := by
  induction K with
  | zero => simp [forN]
  | succ K ih =>
    rw [forN, foldl_set _ _ _ _ (by omega) hi]
    by_cases h : i = K
    · subst h
      rw [dif_pos ⟨j.2, rfl⟩, if_pos (by omega)]
    · rw [dif_neg (fun hh => h hh.2), ih (by omega)]
      by_cases h2 : i < K
      · rw [if_pos h2, if_pos (by omega)]
      · rw [if_neg h2, if_neg (by omega)]

theorem apply_at (op : Operation ns no dim vd) (pt : ℕ → TPt ns no dim) (u : Vec ns) (out : ℕ → ℝ) (i : ℕ)
    (hi : i < no) (j : Fin vd) : op.apply pt u out (j * no + i) = op.val (pt i) u j := by
  refine (apply_loop op pt u out no i le_rfl hi j).trans ?_
  rw [if_pos hi]

theorem addElem_eq (size : ℕ) (dof : ℕ → Fin M) (el : ℕ → ℝ) (v : Vec M) (q : Fin M) :
    addElem size dof el v q = v q + ∑ k ∈ range size, if q = dof k then el k else 0 := by
  unfold addElem
  induction size with
  | zero => simp [forN]
  | succ K ih =>
    rw [forN, sum_range_succ, ih]
    split_ifs <;> ring

theorem transfer_foldl (es : List (Elem dim vd N M X)) (u : Vec N) (v : Vec M) (q : Fin M) :
    es.foldl (fun gf e => addElem (vd * e.no) e.odof (e.op.apply e.pt (mulV e.gather u) e.out0) gf) v q =
      v q + (es.map fun e => ∑ k ∈ range (vd * e.no),
        if q = e.odof k then e.op.apply e.pt (mulV e.gather u) e.out0 k else 0).sum := by
  induction es generalizing v with
  | nil => simp
  | cons e es ih =>
    rw [List.foldl_cons, ih, addElem_eq, List.map_cons, List.sum_cons]; ring

theorem transfer_eq (es : List (Elem dim vd N M X)) (u : Vec N) (q : Fin M) :
    transfer es u q = (es.map fun e => ∑ k ∈ range (vd * e.no),
        if q = e.odof k then e.op.apply e.pt (mulV e.gather u) e.out0 k else 0).sum := by
  unfold transfer
  rw [transfer_foldl]; simp [zeroV]

theorem transfer_at (es : List (Elem dim vd N M X)) (hd : Discontinuous es) (u : Vec N) (e : Elem dim vd N M X)
    (he : e ∈ es) (i : ℕ) (hi : i < e.no) (j : Fin vd) :
    transfer es u (e.dof i j) = e.op.val (e.pt i) (mulV e.gather u) j := by
  rw [transfer_eq, ← apply_at e.op e.pt (mulV e.gather u) e.out0 i hi j]
  have hk : j * e.no + i < vd * e.no := flat_lt hi j.2
  obtain ⟨hp, hinj⟩ := hd
  have own : (∑ k ∈ range (vd * e.no), if e.dof i j = e.odof k then
      e.op.apply e.pt (mulV e.gather u) e.out0 k else 0) =
      e.op.apply e.pt (mulV e.gather u) e.out0 (j * e.no + i) := by
    rw [sum_eq_single (j * e.no + i)]
    · exact if_pos rfl
    · intro k hk' hne
      rw [if_neg]
      intro h
      exact hne (hinj e he _ hk _ (mem_range.1 hk') h).symm
    · intro h; exact absurd (mem_range.2 hk) h
  obtain ⟨pre, post, rfl⟩ := List.append_of_mem he
  rw [List.pairwise_append] at hp
  obtain ⟨-, hpost, hpre⟩ := hp
  rw [List.pairwise_cons] at hpost
  rw [List.map_append, List.map_cons, List.sum_append, List.sum_cons, own]
  have z : ∀ l : List (Elem dim vd N M X), (∀ e' ∈ l, ∀ k' < vd * e'.no, e.dof i j ≠ e'.odof k') →
      (l.map fun e' => ∑ k ∈ range (vd * e'.no), if e.dof i j = e'.odof k then
        e'.op.apply e'.pt (mulV e'.gather u) e'.out0 k else 0).sum = 0 := by
    intro l hl
    apply List.sum_eq_zero
    intro x hx
    obtain ⟨e', he', rfl⟩ := List.mem_map.1 hx
    exact sum_eq_zero fun k hk' => if_neg (hl e' he' k (mem_range.1 hk'))
  rw [z pre fun e' he' k' hk' => (hpre e' he' e (by simp) k' hk' _ hk).symm,
    z post fun e' he' k' hk' => hpost.1 e' he' _ hk k' hk']
  ring

theorem curl3_val (p : TPt ns no 3) (u : Vec ns) : curl3.val p u = bfield p.toMPt u := by
  rw [bfield_eq]; rfl

theorem curl2_val (p : TPt ns no 2) (u : Vec ns) : curl2.val p u = fun k => -curlz (bfield p.toMPt u) k := by
  rw [bfield_eq]
  have e : p.cdft = mulM p.cs p.adj := by unfold MPt.cdft; rw [if_neg (by decide)]
  funext k
  show mulTV (gradToCurl (mulM p.cs p.adj)) u k / p.J = _
  rw [e]
  unfold curlz gradToCurl mulTV
  fin_cases k
  · simp only [Fin.zero_eta, if_true, neg_mul, sum_neg_distrib, neg_div, Matrix.cons_val_zero]
  · simp only [Fin.mk_one, if_neg (by decide : ¬ (1 : Fin 2) = 0), Matrix.cons_val_one, neg_neg,
      Matrix.cons_val_zero, Matrix.cons_val_fin_one]

/-- **C158** Three dimensions: the entry of the transferred field at every node of every element is the component of
the flux density there. -/
theorem C158_flux_density_3d (es : List (Elem 3 3 N M X)) (hd : Discontinuous es) (hop : ∀ e ∈ es, e.op = curl3)
    (u : Vec N) (e : Elem 3 3 N M X) (he : e ∈ es) (i : ℕ) (hi : i < e.no) (j : Fin 3) :
    transfer es u (e.dof i j) = bfield (e.pt i).toMPt (mulV e.gather u) j := by
  rw [transfer_at es hd u e he i hi, hop e he, curl3_val]

/-- **C158** Two dimensions: the entry is the component of the curl of `A_z e_z` with the opposite sign - right up to
the direction. -/
theorem C158_flux_density_2d_partial (es : List (Elem 2 2 N M X)) (hd : Discontinuous es)
    (hop : ∀ e ∈ es, e.op = curl2) (u : Vec N) (e : Elem 2 2 N M X) (he : e ∈ es) (i : ℕ) (hi : i < e.no)
    (j : Fin 2) :
    transfer es u (e.dof i j) = -curlz (bfield (e.pt i).toMPt (mulV e.gather u)) j := by
  rw [transfer_at es hd u e he i hi, hop e he, curl2_val]

/-- **C158** The magnitude output is the magnitude of the flux density, in two and three dimensions. -/
theorem C158_flux_magnitude (es : List (Elem dim 1 N M X)) (hd : Discontinuous es)
    (hop : ∀ e ∈ es, e.op = curlMag) (u : Vec N) (e : Elem dim 1 N M X) (he : e ∈ es) (i : ℕ) (hi : i < e.no)
    (hJ : 0 < (e.pt i).J) :
    transfer es u (e.dof i 0) = norm2 (bfield (e.pt i).toMPt (mulV e.gather u)) := by
  rw [transfer_at es hd u e he i hi, hop e he, norm_bfield _ hJ]; rfl

/-- **C158** The identity transfers copy the field: each entry is the value of the state at the node. -/
theorem C158_identity (es : List (Elem dim 1 N M X)) (hd : Discontinuous es) (hop : ∀ e ∈ es, e.op = scalarId)
    (vs : List (Elem dim dim N M X)) (hvd : Discontinuous vs) (hvop : ∀ e ∈ vs, e.op = vectorId) (u : Vec N) :
    (∀ e ∈ es, ∀ i < e.no, transfer es u (e.dof i 0) = ∑ r, (e.pt i).shape r * mulV e.gather u r) ∧
    (∀ e ∈ vs, ∀ i < e.no, ∀ j, transfer vs u (e.dof i j) = ∑ r, (e.pt i).vshape r j * mulV e.gather u r) := by
  constructor
  · intro e he i hi
    rw [transfer_at es hd u e he i hi, hop e he]; rfl
  · intro e he i hi j
    rw [transfer_at vs hvd u e he i hi, hvop e he]; rfl

/-- **C158** The transferred field interpolates: wherever a component of the field is a combination of the output
shape functions on an element (`c` the coefficients, `φ x` the shape functions at `x`, `val x` the field), the
transferred field is that component at every point of the element. -/
theorem C158_exact_when_representable {α : Type} (es : List (Elem dim vd N M X)) (hd : Discontinuous es) (u : Vec N)
    (e : Elem dim vd N M X) (he : e ∈ es) (j : Fin vd) (φ : α → ℕ → ℝ) (val : α → ℝ) (node : ℕ → α)
    (hφ : ∀ i < e.no, ∀ a < e.no, φ (node i) a = if a = i then 1 else 0)
    (hval : ∀ i < e.no, val (node i) = e.op.val (e.pt i) (mulV e.gather u) j) (c : ℕ → ℝ)
    (hc : ∀ x, val x = ∑ a ∈ range e.no, c a * φ x a) (x : α) :
    ∑ i ∈ range e.no, transfer es u (e.dof i j) * φ x i = val x := by
  rw [hc x]
  refine sum_congr rfl fun i hi => ?_
  have hi := mem_range.1 hi
  rw [transfer_at es hd u e he i hi, ← hval i hi, hc]
  congr 1
  rw [sum_eq_single i]
  · rw [hφ i hi i hi, if_pos rfl, mul_one]
  · intro a ha hne
    rw [hφ i hi a (mem_range.1 ha), if_neg hne, mul_zero]
  · intro h; exact absurd (mem_range.2 hi) h

/-- One linear triangle with one output node, in the mesh of all theorems below. -/
noncomputable def triElem (op : Operation 3 1 2 vd) (J : ℝ) (odof : ℕ → Fin M) : Elem 2 vd 3 M X where
  ns := 3
  no := 1
  op := op
  pt := fun _ => ⟨⟨0, triCs 0, fun a b => if a = b then 1 else 0, fun a b => if a = b then 1 else 0, J⟩,
    fun _ => 1 / 3, fun _ _ => 0, fun _ => 1⟩
  gather := fun r q => if r = q then 1 else 0
  odof := odof
  meshDof := 3
  mgather := fun _ _ => 0
  revs := fun _ => ⟨fun _ _ _ => 0, fun _ _ _ => 0, fun _ _ _ => 0, fun _ _ _ => 0, fun _ _ _ => 0, fun _ _ _ => 0⟩
  junk := fun _ => 0
  out0 := fun _ => 0

theorem tri_discontinuous : Discontinuous
    [(triElem curl2 1 (fun k => if k = 0 then 0 else 1) : Elem 2 2 3 2 1)] := by
  refine ⟨by simp, ?_⟩
  intro e he k hk k' hk' h
  rw [List.mem_singleton] at he
  subst he
  have hk : k < 2 * 1 := hk
  have hk' : k' < 2 * 1 := hk'
  have h : (if k = 0 then (0 : Fin 2) else 1) = if k' = 0 then 0 else 1 := h
  interval_cases k <;> interval_cases k' <;> simp at h ⊢

theorem tri_gather (op : Operation 3 1 2 vd) (J : ℝ) (odof : ℕ → Fin M) (u : Vec 3) :
    mulV (triElem op J odof : Elem 2 vd 3 M X).gather u = u := by
  funext r
  have : ∀ r : Fin 3, ∑ q, (if r = q then (1 : ℝ) else 0) * u q = u r := fun r => by simp
  exact this r

theorem tri_field (op : Operation 3 1 2 vd) (odof : ℕ → Fin M) (i : ℕ) (a b c : ℝ) :
    bfield ((triElem op 1 odof : Elem 2 vd 3 M X).pt i).toMPt ![a, b, c] = ![b - a, c - a] := by
  show bfield (⟨0, triCs 0, fun a b => if a = b then 1 else 0, fun a b => if a = b then 1 else 0, 1⟩ : MPt 3 2) _ = _
  unfold bfield
  rw [if_neg (by decide)]
  funext k
  fin_cases k <;>
    simp [triCs, Fin.sum_univ_two, Fin.sum_univ_three] <;> ring

/-- **C158, violation** In two dimensions the output `flux_density` points against the flux density: here is an element
of a magnet with remanent flux density `(4, -3)` whose residual vanishes for every test function - the flux density
equals the remanent one, C139 - and whose reported flux density is `(-4, 3)`. -/
theorem C158_direction_2d_false : ∃ (u : Vec 3),
    (∀ psi : Vec 3, dotv psi (fun r => elemVec 1 (fun _ _ => 1) 1
        (fun _ => ⟨1 / 2, triCs 0, fun a b => if a = b then 1 else 0, 1⟩) u r +
      MagSource.src 1 1 (fun _ => MagSource.nuM (fun _ => 1) (fun _ => ![4, -3]))
        (fun _ => ⟨⟨1 / 2, triCs 0, fun a b => if a = b then 1 else 0, 1⟩, (fun _ => 1 : Vec 1)⟩)
        (fun _ => 300) r) = 0) ∧
    let e : Elem 2 2 3 2 1 := triElem curl2 1 (fun k => if k = 0 then 0 else 1)
    transfer [e] u (e.dof 0 0) = -4 ∧ transfer [e] u (e.dof 0 1) = 3 := by
  refine ⟨![0, 3, 4], fun psi => ?_, ?_⟩
  · have h := MagSource.C139_magnet_constant_reluctivity (n := 1) 1 (fun _ _ => ![4, -3])
      (fun _ => ⟨⟨1 / 2, triCs 0, fun a b => if a = b then 1 else 0, 1⟩, (fun _ => 1 : Vec 1)⟩)
      (fun _ => 300) ![0, 3, 4] psi (by intro i _; norm_num)
    refine h.trans ?_
    rw [sum_range_one]
    have e : ∀ k, MagSource.curl2 (⟨1 / 2, triCs 0, fun a b => if a = b then 1 else 0, 1⟩ : QPt 3 2)
        ![0, 3, 4] k - (![4, -3] : Vec 2) k = 0 := by
      intro k
      unfold MagSource.curl2
      fin_cases k <;>
        simp [grad_eq, mulTV, QPt.dxt, mulM, triCs, Fin.sum_univ_two, Fin.sum_univ_three]
    simp only [e]
    simp [dotv]
  · have h := C158_flux_density_2d_partial _ tri_discontinuous (by simp [triElem]) ![0, 3, 4] _
      (List.mem_singleton.2 rfl) 0 (by simp [triElem])
    intro e
    rw [h 0, h 1, tri_gather, tri_field]
    constructor <;> simp [curlz]

/-- **C158, violation** The class accepts any output field.  In a continuous one - the output `flux_magnitude` uses the
field the user declared - a node shared by two elements gets the sum of their values instead of the value: here both
elements have a flux density of magnitude 5. -/
theorem C158_shared_nodes_false :
    let e : Elem 2 1 3 1 1 := triElem curlMag 1 (fun _ => 0)
    let u : Vec 3 := ![0, 3, 4]
    norm2 (bfield (e.pt 0).toMPt (mulV e.gather u)) = 5 ∧ transfer [e, e] u (e.dof 0 0) = 10 := by
  have h5 : norm2 (![3, 4] : Vec 2) = 5 := by
    rw [norm2, Real.sqrt_eq_iff_mul_self_eq_of_pos (by norm_num)]
    simp [dotv, Fin.sum_univ_two]; norm_num
  have hb : norm2 (bfield ((triElem curlMag 1 (fun _ => 0) : Elem 2 1 3 1 1).pt 0).toMPt
      (mulV (triElem curlMag 1 (fun _ => 0) : Elem 2 1 3 1 1).gather ![0, 3, 4])) = 5 := by
    rw [tri_gather, tri_field]; norm_num [h5]
  refine ⟨hb, ?_⟩
  rw [transfer_eq]
  have hv : (triElem curlMag 1 (fun _ => 0) : Elem 2 1 3 1 1).op.apply (triElem curlMag 1 (fun _ => 0) : Elem 2 1 3 1 1).pt
      (mulV (triElem curlMag 1 (fun _ => 0) : Elem 2 1 3 1 1).gather ![0, 3, 4])
      (triElem curlMag 1 (fun _ => 0) : Elem 2 1 3 1 1).out0 0 = 5 := by
    have := apply_at (triElem curlMag 1 (fun _ => 0) : Elem 2 1 3 1 1).op (triElem curlMag 1 (fun _ => 0) : Elem 2 1 3 1 1).pt
      (mulV (triElem curlMag 1 (fun _ => 0) : Elem 2 1 3 1 1).gather ![0, 3, 4])
      (triElem curlMag 1 (fun _ => 0) : Elem 2 1 3 1 1).out0 0 (by simp [triElem]) 0
    simp only [Fin.val_zero, zero_mul, zero_add] at this
    rw [this, ← hb, norm_bfield _ (by simp [triElem])]
    rfl
  have hr : range (1 * (triElem curlMag 1 (fun _ => 0) : Elem 2 1 3 1 1).no) = range 1 := rfl
  simp only [List.map_cons, List.map_nil, List.sum_cons, List.sum_nil, hr, sum_range_one]
  rw [hv]
  have : ∀ q : Fin 1, q = (triElem curlMag 1 (fun _ => 0) : Elem 2 1 3 1 1).odof 0 := fun q => Subsingleton.elim _ _
  rw [if_pos (this _)]
  norm_num

/-- **C158, violation** `createOutput("flux_density...")` makes the field it needs; `createOutput("flux_magnitude...")`
throws unless a field of the same name is declared among the external fields. -/
theorem C158_creation_false (fields : List String) (s : String) :
    (∃ fs, addFlux fields ("flux_density" ++ s) = some fs ∧ "flux_density" ++ s ∈ fs ∧ ∀ f ∈ fields, f ∈ fs) ∧
    (addFlux fields ("flux_magnitude" ++ s) = none ↔ "flux_magnitude" ++ s ∉ fields) := by
  constructor
  · unfold addFlux
    rw [if_pos (by simp [Losses.startsWith, List.isPrefixOf])]
    split_ifs with h
    · exact ⟨_, rfl, h, fun _ h => h⟩
    · exact ⟨_, rfl, by simp, fun f hf => by simp [hf]⟩
  · unfold addFlux
    rw [if_neg (by simp [Losses.startsWith, List.isPrefixOf]), if_pos (by simp [Losses.startsWith, List.isPrefixOf])]
    split_ifs with h <;> simp [h]

/-- Non-vacuity: two triangles of a discontinuous space meet the hypotheses of the two-dimensional theorems. -/
example : ∃ es : List (Elem 2 1 3 2 1), es.length = 2 ∧ Discontinuous es ∧ (∀ e ∈ es, e.op = curlMag) ∧
    (∀ e ∈ es, 0 < e.no ∧ ∀ i < e.no, 0 < (e.pt i).J) := by
  refine ⟨[triElem curlMag 1 fun _ => 0, triElem curlMag 2 fun _ => 1], rfl, ⟨?_, ?_⟩, ?_, ?_⟩
  · simp [triElem]
  · intro e he k hk k' hk' _
    have : e.no = 1 := by
      simp only [List.mem_cons, List.not_mem_nil, or_false] at he
      rcases he with rfl | rfl <;> rfl
    omega
  · intro e he
    simp only [List.mem_cons, List.not_mem_nil, or_false] at he
    rcases he with rfl | rfl <;> rfl
  · intro e he
    simp only [List.mem_cons, List.not_mem_nil, or_false] at he
    rcases he with rfl | rfl <;> exact ⟨Nat.one_pos, fun i _ => by simp [triElem]⟩

end Verif.L2Transfer
