import Verif.L2TransferProps

/-!
Property C159: reverse products of the transferred flux density.
-/

namespace Verif.L2Transfer
open Finset Verif.Sbp Verif.Dense Verif.Diffusion Verif.Force Verif.CommonInteg Verif.Inviscid

set_option linter.unusedSimpArgs false
set_option linter.unusedSectionVars false

variable {ns no dim vd m N M X : ℕ}

/-! ### State -/

/-- The reverse pass at a point is the derivative of the value there. -/
def StateOK (op : Operation ns no dim vd) (p : TPt ns no dim) (u : Vec ns) : Prop :=
  ∀ a, ∃ g, (∀ bar, op.sbar p u a bar = some fun r => bar r + g r) ∧
    ∀ δ, HasDerivAt (fun t => dotv a (op.val p fun r => u r + t * δ r)) (dotv g δ) 0

theorem adjAt_nodal (pt : ℕ → TPt ns no dim) (hn : Nodal pt) (el : ℕ → ℝ) (i : ℕ) (hi : i < no) :
    adjAt vd (pt i) el = fun j : Fin vd => el (j * no + i) := by
  funext j
  unfold adjAt
  rw [sum_eq_single (⟨i, hi⟩ : Fin no)]
  · rw [hn i hi, if_pos rfl, one_mul]
  · intro b _ hb
    rw [hn i hi, if_neg (fun h => hb (Fin.ext h)), zero_mul]
  · intro h; exact absurd (mem_univ _) h

theorem elem_sum (op : Operation ns no dim vd) (pt : ℕ → TPt ns no dim) (u : Vec ns) (out el : ℕ → ℝ) :
    ∑ k ∈ range (vd * no), el k * op.apply pt u out k =
      ∑ i ∈ range no, dotv (fun j : Fin vd => el (j * no + i)) (op.val (pt i) u) := by
  rw [sum_flat, sum_comm]
  refine sum_congr rfl fun i hi => ?_
  unfold dotv
  rw [← Fin.sum_univ_eq_sum_range (fun j => el (j * no + i) * op.apply pt u out (j * no + i))]
  exact sum_congr rfl fun j _ => by rw [apply_at _ _ _ _ _ (mem_range.1 hi)]

theorem stateBar_ok (op : Operation ns no dim vd) (pt : ℕ → TPt ns no dim) (hn : Nodal pt) (el out : ℕ → ℝ) (u : Vec ns)
    (h : ∀ i < no, StateOK op (pt i) u) :
    ∃ g, op.stateBar pt el u = some g ∧ ∀ δ : Vec ns,
      HasDerivAt (fun t => ∑ k ∈ range (vd * no), el k * op.apply pt (fun r => u r + t * δ r) out k) (dotv g δ) 0 := by
  have hs : ∀ K ≤ no, ∃ g : Vec ns, forN K (fun i acc => Option.bind acc fun bar =>
      op.sbar (pt i) u (adjAt vd (pt i) el) bar) (some zeroV) = some g ∧
      ∀ δ : Vec ns, HasDerivAt (fun t => ∑ i ∈ range K, dotv (fun j : Fin vd => el (j * no + i))
        (op.val (pt i) fun r => u r + t * δ r)) (dotv g δ) 0 := by
    intro K hK
    induction K with
    | zero =>
      refine ⟨zeroV, rfl, fun δ => ?_⟩
      simp only [range_zero, sum_empty]
      exact (hasDerivAt_const _ _).congr_deriv (by simp [dotv, zeroV])
    | succ K ih =>
      obtain ⟨g, hg, hd⟩ := ih (by omega)
      obtain ⟨g', hg', hd'⟩ := h K (by omega) (adjAt vd (pt K) el)
      refine ⟨fun r => g r + g' r, ?_, fun δ => ?_⟩
      · rw [forN, hg]; exact hg' g
      · simp only [sum_range_succ]
        rw [dotv_add_left]
        have := hd' δ
        rw [adjAt_nodal pt hn el K (by omega)] at this
        exact (hd δ).fun_add this
  obtain ⟨g, hg, hd⟩ := hs no le_rfl
  refine ⟨g, hg, fun δ => ?_⟩
  simp only [elem_sum]
  exact hd δ

theorem dot_transfer (es : List (Elem dim vd N M X)) (u : Vec N) (b : Vec M) :
    dotv b (transfer es u) = (es.map fun e => ∑ k ∈ range (vd * e.no),
      b (e.odof k) * e.op.apply e.pt (mulV e.gather u) e.out0 k).sum := by
  unfold dotv
  simp only [transfer_eq]
  induction es with
  | nil => simp
  | cons e es ih =>
    simp only [List.map_cons, List.sum_cons, mul_add, sum_add_distrib]
    rw [ih]
    congr 1
    simp only [mul_sum]
    rw [sum_comm]
    refine sum_congr rfl fun k _ => ?_
    simp

theorem mulV_line (G : Mat ns N) (u δ : Vec N) (t : ℝ) :
    mulV G (fun q => u q + t * δ q) = fun r => mulV G u r + t * mulV G δ r := by
  funext r
  unfold mulV
  rw [mul_sum, ← sum_add_distrib]
  exact sum_congr rfl fun _ _ => by ring

theorem vjpState_ok (es : List (Elem dim vd N M X)) (u : Vec N) (outBar : Vec M) (wrtBar : Vec N)
    (hn : ∀ e ∈ es, Nodal e.pt) (h : ∀ e ∈ es, ∀ i < e.no, StateOK e.op (e.pt i) (mulV e.gather u)) :
    ∃ g, vjpState es u outBar wrtBar = some (fun q => wrtBar q + g q) ∧ ∀ δ : Vec N,
      HasDerivAt (fun t => dotv outBar (transfer es fun q => u q + t * δ q)) (dotv g δ) 0 := by
  have hs : ∀ bar : Vec N, ∃ g : Vec N, es.foldl (fun acc e => Option.bind acc fun bar =>
      (e.op.stateBar e.pt (fun k => outBar (e.odof k)) (mulV e.gather u)).map fun eb =>
        addMulTV e.gather eb bar) (some bar) = some (fun q => bar q + g q) ∧ ∀ δ : Vec N,
      HasDerivAt (fun t => (es.map fun e => ∑ k ∈ range (vd * e.no), outBar (e.odof k) *
        e.op.apply e.pt (mulV e.gather fun q => u q + t * δ q) e.out0 k).sum) (dotv g δ) 0 := by
    induction es with
    | nil =>
      intro bar
      refine ⟨zeroV, by simp [zeroV], fun δ => ?_⟩
      simp only [List.map_nil, List.sum_nil]
      exact (hasDerivAt_const _ _).congr_deriv (by simp [dotv, zeroV])
    | cons e es ih =>
      intro bar
      obtain ⟨g, hg, hd⟩ := stateBar_ok e.op e.pt (hn e (by simp)) (fun k => outBar (e.odof k)) e.out0
        (mulV e.gather u) (h e (by simp))
      obtain ⟨g', hg', hd'⟩ := ih (fun e he => hn e (by simp [he])) (fun e he => h e (by simp [he]))
        (addMulTV e.gather g bar)
      refine ⟨fun q => mulTV e.gather g q + g' q, ?_, fun δ => ?_⟩
      · rw [List.foldl_cons, Option.bind_some, hg, Option.map_some, hg']
        congr 1; funext q; unfold addMulTV; ring
      · simp only [List.map_cons, List.sum_cons]
        rw [dotv_add_left]
        refine HasDerivAt.fun_add ?_ (hd' δ)
        have := hd (mulV e.gather δ)
        simp only [mulV_line]
        refine this.congr_deriv ?_
        rw [dotv_mulV]
  obtain ⟨g, hg, hd⟩ := hs zeroV
  refine ⟨g, ?_, fun δ => ?_⟩
  · unfold vjpState
    rw [hg, Option.map_some]
    congr 1; funext q; simp [zeroV]
  · simp only [dot_transfer]; exact hd δ

theorem lin_ok (op : Operation ns no dim vd) (p : TPt ns no dim) (u : Vec ns) (A : Mat ns vd)
    (hv : ∀ u, op.val p u = mulTV A u)
    (hs : ∀ a bar, op.sbar p u a bar = some fun r => bar r + mulV A a r) : StateOK op p u := by
  intro a
  refine ⟨mulV A a, hs a, fun δ => ?_⟩
  simp only [hv]
  refine (hasDerivAt_dotv (fun _ => a) _ (fun _ => 0) (mulTV A δ) 0 (fun _ => hasDerivAt_const _ _)
    (fun k => mulTV_line A u δ k)).congr_deriv ?_
  rw [dotv_comm (mulV A a), dotv_mulV, dotv_comm _ a]
  simp [dotv]

theorem mulV_div (A : Mat ns vd) (a : Vec vd) (J : ℝ) (r : Fin ns) :
    mulV A (fun k => a k / J) r = mulV (fun r k => A r k / J) a r := by
  unfold mulV
  exact sum_congr rfl fun _ _ => by ring

theorem mulTV_div (A : Mat ns vd) (a : Vec ns) (J : ℝ) (k : Fin vd) :
    mulTV A a k / J = mulTV (fun r k => A r k / J) a k := by
  unfold mulTV
  rw [sum_div]
  exact sum_congr rfl fun _ _ => by ring

theorem axpy_one (a : Vec vd) : axpy 1 a zeroV = a := by funext k; simp [axpy, zeroV]

theorem scalarId_ok (p : TPt ns no dim) (u : Vec ns) : StateOK scalarId p u := by
  refine lin_ok _ _ _ (fun r _ => p.shape r) (fun u => rfl) (fun a bar => ?_)
  show some _ = some _
  congr 1; funext r
  simp [axpy, mulV, mul_comm]

theorem vectorId_ok (p : TPt ns no dim) (u : Vec ns) : StateOK vectorId p u := by
  refine lin_ok _ _ _ p.vshape (fun u => rfl) (fun a bar => ?_)
  show some _ = some _
  rw [axpy_one]
  congr 1; funext r
  simp [addMulV]

theorem curl3_ok (p : TPt ns no 3) (u : Vec ns) : StateOK curl3 p u := by
  refine lin_ok _ _ _ (fun r k => mulABt p.cs p.jac r k / p.J) (fun u => ?_) (fun a bar => ?_)
  · funext k; exact mulTV_div _ _ _ _
  · show some _ = some _
    rw [axpy_one]
    congr 1; funext r
    unfold addMulV
    rw [mulV_div, one_mul]

theorem curl2_ok (p : TPt ns no 2) (u : Vec ns) : StateOK curl2 p u := by
  refine lin_ok _ _ _ (fun r k => gradToCurl (mulM p.cs p.adj) r k / p.J) (fun u => ?_) (fun a bar => ?_)
  · funext k; exact mulTV_div _ _ _ _
  · show some _ = some _
    rw [axpy_one]
    congr 1; funext r
    unfold addMulV
    rw [mulV_div, one_mul]

theorem curlMag_ok (p : TPt ns no dim) (u : Vec ns) (h0 : p.norm u ≠ 0) : StateOK curlMag p u := by
  intro a
  refine ⟨mulV p.cdft (fun k => a 0 / p.J / p.norm u * mulTV p.cdft u k), fun bar => ?_, fun δ => ?_⟩
  · show (if p.norm u = 0 then none else some _) = _
    rw [if_neg h0]
    congr 1; funext r
    simp only [addMulV, one_mul]
    congr 2
    funext k
    simp [axpy, zeroV]
  · have hn := hasDerivAt_norm2 (fun t => mulTV p.cdft fun r => u r + t * δ r) (mulTV p.cdft δ) 0
      (fun k => mulTV_line _ _ _ k) (by simpa [MPt.norm] using h0)
    simp only [zero_mul, add_zero] at hn
    have e : ∀ t, dotv a ((curlMag : Operation ns no dim 1).val p fun r => u r + t * δ r) =
        a 0 * (norm2 (mulTV p.cdft fun r => u r + t * δ r) / p.J) := by
      intro t; simp [dotv, curlMag, MPt.mag, MPt.norm]
    simp only [e]
    refine ((hn.div_const p.J).const_mul (a 0)).congr_deriv ?_
    rw [dotv_comm (mulV _ _), dotv_mulV, dotv_smul_right, dotv_comm]
    have : norm2 (mulTV p.cdft u) = p.norm u := rfl
    rw [this]; ring

/-- **C159** Reverse product of the flux density with respect to the state: it is added to the given vector, and its
product with any change of the state is the derivative of the weighted output in that direction. -/
theorem C159_state_flux_density (es : List (Elem 3 3 N M X)) (hn : ∀ e ∈ es, Nodal e.pt) (hop : ∀ e ∈ es, e.op = curl3)
    (fs : List (Elem 2 2 N M X)) (hfn : ∀ e ∈ fs, Nodal e.pt) (hfop : ∀ e ∈ fs, e.op = curl2)
    (u : Vec N) (outBar : Vec M) (wrtBar : Vec N) :
    (∃ g, vjpState es u outBar wrtBar = some (fun q => wrtBar q + g q) ∧ ∀ δ : Vec N,
      HasDerivAt (fun t => dotv outBar (transfer es fun q => u q + t * δ q)) (dotv g δ) 0) ∧
    (∃ g, vjpState fs u outBar wrtBar = some (fun q => wrtBar q + g q) ∧ ∀ δ : Vec N,
      HasDerivAt (fun t => dotv outBar (transfer fs fun q => u q + t * δ q)) (dotv g δ) 0) :=
  ⟨vjpState_ok es u outBar wrtBar hn fun e he i _ => by rw [hop e he]; exact curl3_ok _ _,
    vjpState_ok fs u outBar wrtBar hfn fun e he i _ => by rw [hfop e he]; exact curl2_ok _ _⟩

/-- **C159** The same for the identity transfers. -/
theorem C159_state_identity (es : List (Elem dim 1 N M X)) (hn : ∀ e ∈ es, Nodal e.pt) (hop : ∀ e ∈ es, e.op = scalarId)
    (fs : List (Elem dim dim N M X)) (hfn : ∀ e ∈ fs, Nodal e.pt) (hfop : ∀ e ∈ fs, e.op = vectorId)
    (u : Vec N) (outBar : Vec M) (wrtBar : Vec N) :
    (∃ g, vjpState es u outBar wrtBar = some (fun q => wrtBar q + g q) ∧ ∀ δ : Vec N,
      HasDerivAt (fun t => dotv outBar (transfer es fun q => u q + t * δ q)) (dotv g δ) 0) ∧
    (∃ g, vjpState fs u outBar wrtBar = some (fun q => wrtBar q + g q) ∧ ∀ δ : Vec N,
      HasDerivAt (fun t => dotv outBar (transfer fs fun q => u q + t * δ q)) (dotv g δ) 0) :=
  ⟨vjpState_ok es u outBar wrtBar hn fun e he i _ => by rw [hop e he]; exact scalarId_ok _ _,
    vjpState_ok fs u outBar wrtBar hfn fun e he i _ => by rw [hfop e he]; exact vectorId_ok _ _⟩

/-- **C159** The same for the magnitude, when the flux density is not zero at any node. -/
theorem C159_state_magnitude_partial (es : List (Elem dim 1 N M X)) (hn : ∀ e ∈ es, Nodal e.pt)
    (hop : ∀ e ∈ es, e.op = curlMag) (u : Vec N) (outBar : Vec M) (wrtBar : Vec N)
    (hu : ∀ e ∈ es, ∀ i < e.no, bfield (e.pt i).toMPt (mulV e.gather u) ≠ 0) :
    ∃ g, vjpState es u outBar wrtBar = some (fun q => wrtBar q + g q) ∧ ∀ δ : Vec N,
      HasDerivAt (fun t => dotv outBar (transfer es fun q => u q + t * δ q)) (dotv g δ) 0 :=
  vjpState_ok es u outBar wrtBar hn fun e he i hi => by
    rw [hop e he]; exact curlMag_ok _ _ (norm_ne_zero _ _ (hu e he i hi))

theorem bind_none_loop {α : Type} (f : ℕ → α → Option α) (n j : ℕ) (hj : j < n) (h : ∀ x, f j x = none)
    (acc : Option α) : forN n (fun i acc => Option.bind acc (f i)) acc = none := by
  induction n with
  | zero => omega
  | succ n ih =>
    rw [forN]
    by_cases e : j = n
    · subst e
      have : f j = fun _ => none := funext h
      rw [this, Option.bind_fun_none]
    · rw [ih (by omega)]; rfl

theorem bind_none_fold {α β : Type} (f : β → α → Option α) (l : List β) (b : β) (hb : b ∈ l) (h : ∀ x, f b x = none)
    (acc : Option α) : l.foldl (fun acc b => Option.bind acc (f b)) acc = none := by
  have hnone : ∀ l : List β, l.foldl (fun acc b => Option.bind acc (f b)) none = none := by
    intro l; induction l with
    | nil => rfl
    | cons a l ih => rw [List.foldl_cons]; exact ih
  induction l generalizing acc with
  | nil => simp at hb
  | cons a l ih =>
    rw [List.foldl_cons]
    rcases List.mem_cons.1 hb with rfl | hb
    · have : f b = fun _ => none := funext h
      rw [this, Option.bind_fun_none]; exact hnone l
    · exact ih hb _

theorem norm_zero (p : MPt ns dim) (u : Vec ns) (hJ : p.J ≠ 0) (h0 : bfield p u = 0) : p.norm u = 0 := by
  rw [MPt.norm, norm2_eq_zero]
  intro k
  have := congrFun h0 k
  rw [bfield_eq] at this
  rcases div_eq_zero_iff.1 this with h | h
  · exact h
  · exact absurd h hJ

/-- **C159, violation** One node with zero flux density makes the reverse products of the magnitude NaN, with respect to
the state and to the mesh. -/
theorem C159_magnitude_zero_flux_false (es : List (Elem dim 1 N M X)) (u : Vec N) (outBar : Vec M) (wrtBar : Vec N)
    (meshBar : Vec X) (e : Elem dim 1 N M X) (he : e ∈ es) (hop : e.op = curlMag) (i : ℕ) (hi : i < e.no)
    (hJ : (e.pt i).J ≠ 0) (h0 : bfield (e.pt i).toMPt (mulV e.gather u) = 0) :
    vjpState es u outBar wrtBar = none ∧ vjpMesh es u outBar meshBar = none := by
  have hz := norm_zero _ _ hJ h0
  constructor
  · unfold vjpState
    rw [bind_none_fold (fun e bar => (e.op.stateBar e.pt (fun k => outBar (e.odof k)) (mulV e.gather u)).map fun eb =>
      addMulTV e.gather eb bar) es e he _ _]
    · rfl
    · intro bar
      have : e.op.stateBar e.pt (fun k => outBar (e.odof k)) (mulV e.gather u) = none := by
        unfold Operation.stateBar
        refine bind_none_loop (fun i bar => e.op.sbar (e.pt i) (mulV e.gather u)
          (adjAt 1 (e.pt i) fun k => outBar (e.odof k)) bar) _ i hi (fun bar => ?_) _
        simp only [hop]
        exact if_pos hz
      rw [this]; rfl
  · unfold vjpMesh
    rw [bind_none_fold (fun e bar => (e.op.meshBar e.meshDof e.revs e.junk e.pt (fun k => outBar (e.odof k))
      (mulV e.gather u)).map fun eb => fun q => bar q + ∑ k ∈ Finset.range (dim * e.meshDof), e.mgather k q * eb.1 k)
        es e he _ _]
    · rfl
    · intro bar
      have : e.op.meshBar e.meshDof e.revs e.junk e.pt (fun k => outBar (e.odof k)) (mulV e.gather u) = none := by
        unfold Operation.meshBar
        refine bind_none_loop (fun i s => (e.op.mbar (e.revs i) (e.pt i) (mulV e.gather u)
          (adjAt 1 (e.pt i) fun k => outBar (e.odof k)) (e.op.asb (e.pt i) (mulV e.gather u)
            (fun k => outBar (e.odof k)) s.2)).map fun P => (scatter e.meshDof dim P s.1,
              e.op.asb (e.pt i) (mulV e.gather u) (fun k => outBar (e.odof k)) s.2)) _ i hi (fun bar => ?_) _
        simp only [hop]
        have : ∀ R a asb, (curlMag : Operation e.ns e.no dim 1).mbar R (e.pt i) (mulV e.gather u) a asb = none :=
          fun R a asb => if_pos hz
        rw [this]; rfl
      rw [this]; rfl

/-! ### Mesh -/

/-- Specification: a motion of the mesh nodes of one element along a line, with everything the operations read at the
nodes of the output element: the mapping (`FMotion`) and the physical shape functions of the state.  The reverse maps of
MFEM return the adjoints of the derivatives; the output shape functions are those of the reference element and
do not change (`CalcPhysShapeRevDiff` adds nothing). -/
structure TMotion (ns no dim m : ℕ) extends FMotion no dim m where
  shape : ℕ → ℝ → Vec ns
  shape' : ℕ → Vec ns
  hshape : ∀ i < no, ∀ r, HasDerivAt (fun t => shape i t r) (shape' i r) 0
  vshape : ℕ → ℝ → Mat ns dim
  vshape' : ℕ → Mat ns dim
  hvshape : ∀ i < no, ∀ r k, HasDerivAt (fun t => vshape i t r k) (vshape' i r k) 0
  sRev : ℕ → Vec ns → ℕ → ℕ → ℝ
  hsRev : ∀ i < no, ∀ v : Vec ns,
    ∑ k ∈ range dim, ∑ j ∈ range m, sRev i v k j * δ (k * m + j) = dotv v (shape' i)
  vRev : ℕ → Mat ns dim → ℕ → ℕ → ℝ
  hvRev : ∀ i < no, ∀ A : Mat ns dim,
    ∑ k ∈ range dim, ∑ j ∈ range m, vRev i A k j * δ (k * m + j) = frob A (vshape' i)
  oRev : ℕ → Vec no → ℕ → ℕ → ℝ
  hoRev : ∀ i < no, ∀ v k j, oRev i v k j = 0
  cs : ℕ → Mat ns dim
  oshape : ℕ → Vec no

/-- The nodes after the motion by `t`. -/
noncomputable def TMotion.pts (μ : TMotion ns no dim m) (t : ℝ) (i : ℕ) : TPt ns no dim :=
  ⟨⟨0, μ.cs i, μ.jac i t, μ.adj i t, μ.J i t⟩, μ.shape i t, μ.vshape i t, μ.oshape i⟩

/-- The reverse maps of MFEM at the node `i`. -/
def TMotion.revs (μ : TMotion ns no dim m) (i : ℕ) : Revs ns no dim :=
  ⟨μ.jacRev i, μ.adjRev i, μ.wRev i, μ.sRev i, μ.vRev i, μ.oRev i⟩

/-- The reverse pass with respect to the mesh at a point is the derivative of the value there. -/
def MeshOK (op : Operation ns no dim vd) (μ : TMotion ns no dim m) (i : ℕ) (u : Vec ns) : Prop :=
  ∀ a asb, ∃ P, op.mbar (μ.revs i) (μ.pts 0 i) u a asb = some P ∧
    HasDerivAt (fun t => dotv a (op.val (μ.pts t i) u))
      (∑ k ∈ range dim, ∑ j ∈ range m, P k j * μ.δ (k * m + j)) 0

theorem meshBar_ok (op : Operation ns no dim vd) (μ : TMotion ns no dim m) (hn : Nodal (μ.pts 0)) (junk : Vec no)
    (el out : ℕ → ℝ) (u : Vec ns) (h : ∀ i < no, MeshOK op μ i u) :
    ∃ g, op.meshBar m μ.revs junk (μ.pts 0) el u = some g ∧
      HasDerivAt (fun t => ∑ k ∈ range (vd * no), el k * op.apply (μ.pts t) u out k)
        (∑ q ∈ range (dim * m), g.1 q * μ.δ q) 0 := by
  have hs : ∀ K ≤ no, ∃ g, forN K (fun i acc => Option.bind acc fun s : (ℕ → ℝ) × Vec no =>
      (op.mbar (μ.revs i) (μ.pts 0 i) u (adjAt vd (μ.pts 0 i) el) (op.asb (μ.pts 0 i) u el s.2)).map fun P =>
        (scatter m dim P s.1, op.asb (μ.pts 0 i) u el s.2)) (some (fun _ => 0, junk)) = some g ∧
      HasDerivAt (fun t => ∑ i ∈ range K, dotv (fun j : Fin vd => el (j * no + i)) (op.val (μ.pts t i) u))
        (∑ q ∈ range (dim * m), g.1 q * μ.δ q) 0 := by
    intro K hK
    induction K with
    | zero =>
      refine ⟨_, rfl, ?_⟩
      simp only [range_zero, sum_empty]
      exact (hasDerivAt_const _ _).congr_deriv (by simp)
    | succ K ih =>
      obtain ⟨g, hg, hd⟩ := ih (by omega)
      obtain ⟨P, hP, hd'⟩ := h K (by omega) (adjAt vd (μ.pts 0 K) el) (op.asb (μ.pts 0 K) u el g.2)
      refine ⟨(scatter m dim P g.1, op.asb (μ.pts 0 K) u el g.2), ?_, ?_⟩
      · rw [forN, hg, Option.bind_some, hP]; rfl
      · simp only [sum_range_succ]
        rw [scatter_dot]
        rw [adjAt_nodal (μ.pts 0) hn el K (by omega)] at hd'
        exact hd.fun_add hd'
  obtain ⟨g, hg, hd⟩ := hs no le_rfl
  refine ⟨g, hg, ?_⟩
  simp only [elem_sum]
  exact hd

theorem sum_rev (μ : TMotion ns no dim m) (i : ℕ) (hi : i < no) (asb : Vec no) (P Q : ℕ → ℕ → ℝ) (x y : ℝ)
    (hP : ∑ k ∈ range dim, ∑ j ∈ range m, P k j * μ.δ (k * m + j) = x)
    (hQ : ∑ k ∈ range dim, ∑ j ∈ range m, Q k j * μ.δ (k * m + j) = y) :
    ∑ k ∈ range dim, ∑ j ∈ range m, (0 + P k j + μ.oRev i asb k j + Q k j) * μ.δ (k * m + j) = x + y := by
  rw [← hP, ← hQ, ← sum_add_distrib]
  refine sum_congr rfl fun k _ => ?_
  rw [← sum_add_distrib]
  exact sum_congr rfl fun j _ => by rw [μ.hoRev i hi]; ring

theorem scalarId_mesh (μ : TMotion ns no dim m) (i : ℕ) (hi : i < no) (u : Vec ns) : MeshOK scalarId μ i u := by
  intro a asb
  refine ⟨_, rfl, ?_⟩
  have e : ∀ t, dotv a ((scalarId : Operation ns no dim 1).val (μ.pts t i) u) = a 0 * dotv (μ.shape i t) u := by
    intro t; simp [dotv, scalarId, TMotion.pts]
  simp only [e]
  refine ((hasDerivAt_dotv (μ.shape i) (fun _ => u) (μ.shape' i) (fun _ => 0) 0 (μ.hshape i hi)
    (fun _ => hasDerivAt_const _ _)).const_mul (a 0)).congr_deriv ?_
  have h := μ.hsRev i hi (axpy (1 * a 0) u zeroV)
  have hz : ∑ k ∈ range dim, ∑ j ∈ range m, (fun _ _ => (0 : ℝ)) k j * μ.δ (k * m + j) = 0 := by simp
  have h2 := sum_rev μ i hi asb _ _ _ _ hz h
  simp only [zero_add, add_zero] at h2
  simp only [zero_add]
  refine Eq.trans ?_ h2.symm
  have : axpy (1 * a 0) u zeroV = fun r => a 0 * u r := by funext r; simp [axpy, zeroV]
  rw [this, dotv_smul_left, dotv_comm u]
  simp [dotv]

theorem vectorId_mesh (μ : TMotion ns no dim m) (i : ℕ) (hi : i < no) (u : Vec ns) : MeshOK vectorId μ i u := by
  intro a asb
  refine ⟨_, rfl, ?_⟩
  have hd : ∀ k, HasDerivAt (fun t => mulTV (μ.vshape i t) u k) (mulTV (μ.vshape' i) u k) 0 := fun k =>
    HasDerivAt.fun_sum fun r _ => (μ.hvshape i hi r k).mul_const (u r)
  refine (hasDerivAt_dotv (fun _ => a) (fun t => mulTV (μ.vshape i t) u) (fun _ => 0) _ 0
    (fun _ => hasDerivAt_const _ _) hd).congr_deriv ?_
  have h := μ.hvRev i hi (fun r k => zeroM r k + vwt u (axpy 1 a zeroV) r k)
  have hz : ∑ k ∈ range dim, ∑ j ∈ range m, (fun _ _ => (0 : ℝ)) k j * μ.δ (k * m + j) = 0 := by simp
  have h2 := sum_rev μ i hi asb _ _ _ _ hz h
  simp only [zero_add, add_zero] at h2
  refine Eq.trans ?_ ((sum_congr rfl fun k _ => sum_congr rfl fun j _ => ?_).trans h2).symm
  · rw [axpy_one]
    have : (fun r k => zeroM r k + vwt u a r k) = fun r k => u r * a k := by funext r k; simp [zeroM, vwt]
    rw [this, frob_outer]
    simp [dotv]
  · show (0 + μ.oRev i asb k j + μ.vRev i _ k j) * _ = _
    rw [zero_add]

theorem quot_deriv (c : ℝ → Vec vd) (c' a : Vec vd) (J : ℝ → ℝ) (J' : ℝ)
    (hc : ∀ k, HasDerivAt (fun t => c t k) (c' k) 0) (hJ : HasDerivAt J J' 0) (h0 : J 0 ≠ 0) :
    HasDerivAt (fun t => dotv a fun k => c t k / J t) ((0 + -1 * dotv a (c 0) / J 0 ^ 2) * J' + 1 / J 0 * dotv a c') 0 := by
  have e : (fun t => dotv a fun k => c t k / J t) = fun t => dotv a (c t) / J t := by
    funext t
    unfold dotv
    rw [sum_div]
    exact sum_congr rfl fun _ _ => by rw [mul_div_assoc]
  rw [e]
  refine ((hasDerivAt_dotv (fun _ => a) c (fun _ => 0) c' 0 (fun _ => hasDerivAt_const _ _) hc).fun_div hJ h0).congr_deriv ?_
  have : dotv (fun _ : Fin vd => (0 : ℝ)) (c 0) = 0 := by simp [dotv]
  rw [this]
  field_simp
  ring

theorem curl3_mesh (μ : TMotion ns no 3 m) (i : ℕ) (hi : i < no) (hJ : μ.J i 0 ≠ 0) (u : Vec ns) :
    MeshOK curl3 μ i u := by
  intro a asb
  refine ⟨_, rfl, ?_⟩
  have hd : ∀ k, HasDerivAt (fun t => mulTV (mulABt (μ.cs i) (μ.jac i t)) u k) (mulV (μ.jac' i) (mulTV (μ.cs i) u) k) 0 := by
    intro k
    have e : ∀ t, mulTV (mulABt (μ.cs i) (μ.jac i t)) u k = mulV (μ.jac i t) (mulTV (μ.cs i) u) k := by
      intro t
      unfold mulTV mulABt mulV
      simp only [sum_mul, mul_sum]
      rw [sum_comm]
      exact sum_congr rfl fun _ _ => sum_congr rfl fun _ _ => by ring
    simp only [e]
    exact HasDerivAt.fun_sum fun l _ => (μ.hjac i hi k l).mul_const (mulTV (μ.cs i) u l)
  refine (quot_deriv _ _ a _ _ hd (μ.hJ i hi) hJ).congr_deriv ?_
  have h := μ.hjacRev i hi (fun x y => zeroM x y + mulM (vwt (axpy (1 / μ.J i 0) a zeroV) u) (μ.cs i) x y)
  have hw := μ.hwRev i hi (0 + -1 * dotv a (mulTV (mulABt (μ.cs i) (μ.jac i 0)) u) / μ.J i 0 ^ 2)
  refine Eq.trans ?_ (sum_rev μ i hi asb _ _ _ _ hw h).symm
  congr 1
  have : (fun x y => zeroM x y + mulM (vwt (axpy (1 / μ.J i 0) a zeroV) u) (μ.cs i) x y) =
      vwt (fun k => 1 / μ.J i 0 * a k) (mulTV (μ.cs i) u) := by
    funext x y; rw [mulM_vwt]; simp [zeroM, axpy, zeroV, vwt]
  rw [this, frob_vwt, ← dotv_smul_left]; rfl

theorem frob_rot (F G : Mat ns 2) : frob (fun r k => gradToCurl F r k * -1) G = frob F (gradToCurl G) := by
  unfold frob gradToCurl
  refine sum_congr rfl fun r _ => ?_
  simp only [Fin.sum_univ_two, if_true, if_neg (by decide : ¬ (1 : Fin 2) = 0)]
  ring

theorem curl2_mesh (μ : TMotion ns no 2 m) (i : ℕ) (hi : i < no) (hJ : μ.J i 0 ≠ 0) (u : Vec ns) :
    MeshOK curl2 μ i u := by
  intro a asb
  refine ⟨_, rfl, ?_⟩
  have hg : ∀ r k, HasDerivAt (fun t => gradToCurl (mulM (μ.cs i) (μ.adj i t)) r k)
      (gradToCurl (mulM (μ.cs i) (μ.adj' i)) r k) 0 := by
    intro r k
    have hm : ∀ k, HasDerivAt (fun t => mulM (μ.cs i) (μ.adj i t) r k) (mulM (μ.cs i) (μ.adj' i) r k) 0 := fun k =>
      HasDerivAt.fun_sum fun l _ => (μ.hadj i hi l k).const_mul (μ.cs i r l)
    unfold gradToCurl
    split_ifs
    · exact (hm 1).fun_neg
    · exact hm 0
  have hd : ∀ k, HasDerivAt (fun t => mulTV (gradToCurl (mulM (μ.cs i) (μ.adj i t))) u k)
      (mulTV (gradToCurl (mulM (μ.cs i) (μ.adj' i))) u k) 0 := fun k =>
    HasDerivAt.fun_sum fun r _ => (hg r k).mul_const (u r)
  refine (quot_deriv _ _ a _ _ hd (μ.hJ i hi) hJ).congr_deriv ?_
  have h := μ.hadjRev i hi (mulAtB (μ.cs i) fun r k => gradToCurl (vwt u (axpy (1 / μ.J i 0) a zeroV)) r k * -1)
  have hw := μ.hwRev i hi (0 + -1 * dotv a (mulTV (gradToCurl (mulM (μ.cs i) (μ.adj i 0))) u) / μ.J i 0 ^ 2)
  refine Eq.trans ?_ (sum_rev μ i hi asb _ _ _ _ hw h).symm
  congr 1
  rw [frob_mulAtB, frob_rot]
  have : vwt u (axpy (1 / μ.J i 0) a zeroV) = fun r k => u r * (1 / μ.J i 0 * a k) := by
    funext x y; simp [axpy, zeroV, vwt]
  rw [this, frob_outer, dotv_smul_left]

theorem curlMag_mesh (μ : TMotion ns no dim m) (i : ℕ) (hi : i < no) (hJ : μ.J i 0 ≠ 0) (u : Vec ns)
    (h0 : (μ.pts 0 i).norm u ≠ 0) : MeshOK curlMag μ i u := by
  intro a asb
  obtain ⟨r, hr, hs⟩ := backMesh_dot μ.toFMotion (fun _ => 0) μ.cs u i hi (1 * a 0) 0 h0
  refine ⟨fun k j => 0 + μ.oRev i asb k j + μ.wRev i r.2 k j + (if dim = 3 then μ.jacRev i r.1 k j else μ.adjRev i r.1 k j),
    ?_, ?_⟩
  · have e : backMesh (μ.pts 0 i).toMPt u (1 * a 0) 0 = some r := hr
    unfold backMesh at e
    simp only [if_neg h0, Option.some.injEq] at e
    show (if (μ.pts 0 i).norm u = 0 then none else some _) = _
    rw [if_neg h0]
    congr 1
    funext k j
    rw [← e]
    simp only [zero_mul, add_zero]
    rfl
  · have hn := hasDerivAt_norm2 (fun t => mulTV (mpts μ.toFMotion (fun _ => 0) μ.cs t i).cdft u) (dcurl μ.toFMotion μ.cs u i) 0
      (fun k => curl_motion μ.toFMotion (fun _ => 0) μ.cs u i hi k) h0
    have e : ∀ t, dotv a ((curlMag : Operation ns no dim 1).val (μ.pts t i) u) =
        a 0 * (norm2 (mulTV (mpts μ.toFMotion (fun _ => 0) μ.cs t i).cdft u) / μ.J i t) := by
      intro t
      show ∑ j : Fin 1, a j * _ = _
      rw [Fin.sum_univ_one]; rfl
    simp only [e]
    refine ((hn.fun_div (μ.hJ i hi) hJ).const_mul (a 0)).congr_deriv ?_
    have hs' : ∑ k ∈ range dim, ∑ j ∈ range m, (0 + μ.oRev i asb k j + μ.wRev i r.2 k j +
        (if dim = 3 then μ.jacRev i r.1 k j else μ.adjRev i r.1 k j)) * μ.δ (k * m + j) =
        ∑ k ∈ range dim, ∑ j ∈ range m, (0 + (if dim = 3 then μ.jacRev i r.1 k j else μ.adjRev i r.1 k j) +
        μ.wRev i r.2 k j) * μ.δ (k * m + j) :=
      sum_congr rfl fun k _ => sum_congr rfl fun j _ => by rw [μ.hoRev i hi]; ring
    rw [hs', hs]
    have e2 : norm2 (mulTV (mpts μ.toFMotion (fun _ => 0) μ.cs 0 i).cdft u) = (mpts μ.toFMotion (fun _ => 0) μ.cs 0 i).norm u := rfl
    have h0' : (mpts μ.toFMotion (fun _ => 0) μ.cs 0 i).norm u ≠ 0 := h0
    rw [e2]
    generalize (mpts μ.toFMotion (fun _ => 0) μ.cs 0 i).norm u = x at h0' ⊢
    generalize dotv _ (dcurl _ _ _ _) = y
    field_simp
    ring

/-- Specification: an element of a moving mesh; `mgather` maps a motion of all mesh coordinates to that of its nodes. -/
structure MElem (dim vd N M X : ℕ) where
  ns : ℕ
  no : ℕ
  meshDof : ℕ
  op : Operation ns no dim vd
  motion : TMotion ns no dim meshDof
  gather : Mat ns N
  odof : ℕ → Fin M
  mgather : ℕ → Fin X → ℝ
  junk : Vec no
  out0 : ℕ → ℝ

/-- The element after the motion by `t`. -/
noncomputable def MElem.at (e : MElem dim vd N M X) (t : ℝ) : Elem dim vd N M X :=
  ⟨e.ns, e.no, e.op, e.motion.pts t, e.gather, e.odof, e.meshDof, e.mgather, e.motion.revs, e.junk, e.out0⟩

/-- Specification: every element moves with the mesh coordinates, in direction `δ`. -/
def Attached (es : List (MElem dim vd N M X)) (δ : Vec X) : Prop :=
  ∀ e ∈ es, ∀ k < dim * e.meshDof, e.motion.δ k = ∑ q, e.mgather k q * δ q

theorem vjpMesh_ok (es : List (MElem dim vd N M X)) (δ : Vec X) (ha : Attached es δ) (u : Vec N) (outBar : Vec M)
    (wrtBar : Vec X) (hn : ∀ e ∈ es, Nodal (e.motion.pts 0))
    (h : ∀ e ∈ es, ∀ i < e.no, MeshOK e.op e.motion i (mulV e.gather u)) :
    ∃ g, vjpMesh (es.map fun e => e.at 0) u outBar wrtBar = some (fun q => wrtBar q + g q) ∧
      HasDerivAt (fun t => dotv outBar (transfer (es.map fun e => e.at t) u)) (dotv g δ) 0 := by
  have hs : ∀ bar : Vec X, ∃ g : Vec X, (es.map fun e => e.at 0).foldl (fun acc e => Option.bind acc fun bar =>
      (e.op.meshBar e.meshDof e.revs e.junk e.pt (fun k => outBar (e.odof k)) (mulV e.gather u)).map fun eb =>
        fun q => bar q + ∑ k ∈ Finset.range (dim * e.meshDof), e.mgather k q * eb.1 k) (some bar) =
          some (fun q => bar q + g q) ∧
      HasDerivAt (fun t => ((es.map fun e => e.at t).map fun e => ∑ k ∈ range (vd * e.no), outBar (e.odof k) *
        e.op.apply e.pt (mulV e.gather u) e.out0 k).sum) (dotv g δ) 0 := by
    induction es with
    | nil =>
      intro bar
      refine ⟨zeroV, by simp [zeroV], ?_⟩
      simp only [List.map_nil, List.sum_nil]
      exact (hasDerivAt_const _ _).congr_deriv (by simp [dotv, zeroV])
    | cons e es ih =>
      intro bar
      obtain ⟨g, hg, hd⟩ := meshBar_ok e.op e.motion (hn e (by simp)) e.junk (fun k => outBar (e.odof k)) e.out0
        (mulV e.gather u) (h e (by simp))
      obtain ⟨g', hg', hd'⟩ := ih (fun e he => ha e (by simp [he])) (fun e he => hn e (by simp [he]))
        (fun e he => h e (by simp [he]))
        (fun q => bar q + ∑ k ∈ Finset.range (dim * e.meshDof), e.mgather k q * g.1 k)
      have hg2 : (e.at 0).op.meshBar (e.at 0).meshDof (e.at 0).revs (e.at 0).junk (e.at 0).pt
        (fun k => outBar ((e.at 0).odof k)) (mulV (e.at 0).gather u) = some g := hg
      refine ⟨fun q => (∑ k ∈ Finset.range (dim * e.meshDof), e.mgather k q * g.1 k) + g' q, ?_, ?_⟩
      · rw [List.map_cons, List.foldl_cons, Option.bind_some]
        refine (congrArg (fun a => List.foldl _ a _) ((congrArg (Option.map _) hg2).trans rfl)).trans (hg'.trans ?_)
        congr 1; funext q; ring
      · simp only [List.map_cons, List.sum_cons]
        rw [dotv_add_left]
        refine HasDerivAt.fun_add ?_ hd'
        refine hd.congr_deriv ?_
        unfold dotv
        simp only [sum_mul]
        rw [sum_comm]
        refine sum_congr rfl fun k hk => ?_
        rw [ha e (by simp) k (mem_range.1 hk), mul_sum]
        exact sum_congr rfl fun _ _ => by ring
  obtain ⟨g, hg, hd⟩ := hs zeroV
  refine ⟨g, ?_, ?_⟩
  · unfold vjpMesh
    rw [hg, Option.map_some]
    congr 1; funext q; simp [zeroV]
  · simp only [dot_transfer]; exact hd

/-- **C159** Reverse product of the flux density with respect to the mesh coordinates: it is added to the given vector,
and its product with any motion of the mesh nodes is the derivative of the weighted output under that motion - whatever
the uninitialised work vector of the code contains. -/
theorem C159_mesh_flux_density (es : List (MElem 3 3 N M X)) (hn : ∀ e ∈ es, Nodal (e.motion.pts 0))
    (hop : ∀ e ∈ es, e.op = curl3) (hJ : ∀ e ∈ es, ∀ i < e.no, e.motion.J i 0 ≠ 0)
    (fs : List (MElem 2 2 N M X)) (hfn : ∀ e ∈ fs, Nodal (e.motion.pts 0))
    (hfop : ∀ e ∈ fs, e.op = curl2) (hfJ : ∀ e ∈ fs, ∀ i < e.no, e.motion.J i 0 ≠ 0)
    (δ : Vec X) (ha : Attached es δ) (hfa : Attached fs δ) (u : Vec N) (outBar : Vec M) (wrtBar : Vec X) :
    (∃ g, vjpMesh (es.map fun e => e.at 0) u outBar wrtBar = some (fun q => wrtBar q + g q) ∧
      HasDerivAt (fun t => dotv outBar (transfer (es.map fun e => e.at t) u)) (dotv g δ) 0) ∧
    (∃ g, vjpMesh (fs.map fun e => e.at 0) u outBar wrtBar = some (fun q => wrtBar q + g q) ∧
      HasDerivAt (fun t => dotv outBar (transfer (fs.map fun e => e.at t) u)) (dotv g δ) 0) :=
  ⟨vjpMesh_ok es δ ha u outBar wrtBar hn fun e he i hi => by rw [hop e he]; exact curl3_mesh _ i hi (hJ e he i hi) _,
    vjpMesh_ok fs δ hfa u outBar wrtBar hfn fun e he i hi => by rw [hfop e he]; exact curl2_mesh _ i hi (hfJ e he i hi) _⟩

/-- **C159** The same for the magnitude, when the flux density is not zero at any node. -/
theorem C159_mesh_magnitude_partial (es : List (MElem dim 1 N M X)) (hn : ∀ e ∈ es, Nodal (e.motion.pts 0))
    (hop : ∀ e ∈ es, e.op = curlMag) (hJ : ∀ e ∈ es, ∀ i < e.no, e.motion.J i 0 ≠ 0) (δ : Vec X) (ha : Attached es δ)
    (u : Vec N) (hu : ∀ e ∈ es, ∀ i < e.no, bfield (e.motion.pts 0 i).toMPt (mulV e.gather u) ≠ 0)
    (outBar : Vec M) (wrtBar : Vec X) :
    ∃ g, vjpMesh (es.map fun e => e.at 0) u outBar wrtBar = some (fun q => wrtBar q + g q) ∧
      HasDerivAt (fun t => dotv outBar (transfer (es.map fun e => e.at t) u)) (dotv g δ) 0 :=
  vjpMesh_ok es δ ha u outBar wrtBar hn fun e he i hi => by
    rw [hop e he]; exact curlMag_mesh _ i hi (hJ e he i hi) _ (norm_ne_zero _ _ (hu e he i hi))

/-- **C159** The same for the identity transfers. -/
theorem C159_mesh_identity (es : List (MElem dim 1 N M X)) (hn : ∀ e ∈ es, Nodal (e.motion.pts 0))
    (hop : ∀ e ∈ es, e.op = scalarId) (fs : List (MElem dim dim N M X)) (hfn : ∀ e ∈ fs, Nodal (e.motion.pts 0))
    (hfop : ∀ e ∈ fs, e.op = vectorId)
    (δ : Vec X) (ha : Attached es δ) (hfa : Attached fs δ) (u : Vec N) (outBar : Vec M) (wrtBar : Vec X) :
    (∃ g, vjpMesh (es.map fun e => e.at 0) u outBar wrtBar = some (fun q => wrtBar q + g q) ∧
      HasDerivAt (fun t => dotv outBar (transfer (es.map fun e => e.at t) u)) (dotv g δ) 0) ∧
    (∃ g, vjpMesh (fs.map fun e => e.at 0) u outBar wrtBar = some (fun q => wrtBar q + g q) ∧
      HasDerivAt (fun t => dotv outBar (transfer (fs.map fun e => e.at t) u)) (dotv g δ) 0) :=
  ⟨vjpMesh_ok es δ ha u outBar wrtBar hn fun e he i hi => by rw [hop e he]; exact scalarId_mesh _ i hi _,
    vjpMesh_ok fs δ hfa u outBar wrtBar hfn fun e he i hi => by rw [hfop e he]; exact vectorId_mesh _ i hi _⟩

/-- Concrete mesh motion: the unit triangle, with its second vertex moving along `x`, one output node at its centre
and the three linear shape functions. -/
noncomputable def triT : TMotion 3 1 2 3 where
  toFMotion := triMove
  shape _ _ := ![1 / 3, 1 / 3, 1 / 3]
  shape' _ := zeroV
  hshape i _ r := (hasDerivAt_const _ _).congr_deriv (by simp [zeroV])
  vshape _ _ := zeroM
  vshape' _ := zeroM
  hvshape i _ r k := (hasDerivAt_const _ _).congr_deriv (by simp [zeroM])
  sRev _ _ _ _ := 0
  hsRev i _ v := by simp [dotv, zeroV]
  vRev _ _ _ _ := 0
  hvRev i _ A := by simp [frob, zeroM]
  oRev _ _ _ _ := 0
  hoRev _ _ _ _ _ := rfl
  cs := triCs
  oshape _ := fun _ => 1

/-- The corresponding element. -/
noncomputable def triM (vd : ℕ) (op : Operation 3 1 2 vd) (od : ℕ → Fin 2) : MElem 2 vd 3 2 6 :=
  ⟨3, 1, 3, op, triT, fun a b => if a = b then 1 else 0, od, fun k q => if k = (q : ℕ) then 1 else 0, fun _ => 7,
    fun _ => 0⟩

theorem tri_nodal : Nodal (triT.pts 0) := by
  intro i hi k
  have : i = 0 := by omega
  subst this
  fin_cases k
  simp [TMotion.pts, triT]

/-- Non-vacuity for **C159** (mesh part): the hypotheses hold for the flux density, its magnitude and the identity on the
moving triangle, and the motion is not zero. -/
example : (∀ e ∈ [triM 1 curlMag (fun _ => 0)], Nodal (e.motion.pts 0)) ∧
    (∀ e ∈ [triM 1 curlMag (fun _ => 0)], ∀ i < e.no, e.motion.J i 0 ≠ 0) ∧
    Attached [triM 1 curlMag (fun _ => 0)] (fun q => if q = 1 then 1 else 0) ∧
    Attached [triM 2 curl2 (fun k => if k = 0 then 0 else 1)] (fun q => if q = 1 then 1 else 0) ∧
    (∀ e ∈ [triM 1 curlMag (fun _ => 0)], ∀ i < e.no, bfield (e.motion.pts 0 i).toMPt (mulV e.gather ![0, 3, 4]) ≠ 0) := by
  have hA : ∀ k < 2 * 3, triMove.δ k = ∑ q : Fin 6, (if k = (q : ℕ) then (1 : ℝ) else 0) * (if q = 1 then 1 else 0) := by
    intro k hk
    change (if k = 1 then (1 : ℝ) else 0) = _
    have : k < 6 := by omega
    interval_cases k <;> simp [Fin.sum_univ_succ]
  have hJ : ∀ i < 1, triMove.J i 0 ≠ 0 := by
    intro i hi
    have : i = 0 := by omega
    subst this
    rw [triMove_J]; norm_num
  have hB : ∀ i < 1, bfield (triT.pts 0 i).toMPt (mulV (fun a b : Fin 3 => if a = b then (1 : ℝ) else 0) ![0, 3, 4]) ≠ 0 := by
    intro i hi h
    have : i = 0 := by omega
    subst this
    have e : mulV (fun a b : Fin 3 => if a = b then (1 : ℝ) else 0) ![0, 3, 4] = ![0, 3, 4] := by
      funext a; simp [mulV]
    rw [e] at h
    have h2 : bfield (triT.pts 0 0).toMPt ![0, 3, 4] = bfield (mpts triMove (fun _ => 1 / 2) triCs 0 0) ![0, 3, 4] := rfl
    rw [h2, tri_bfield] at h
    have := congrFun h 0
    norm_num at this
  refine ⟨?_, ?_, ?_, ?_, ?_⟩
  · intro e he; rw [List.mem_singleton.1 he]; exact tri_nodal
  · intro e he; rw [List.mem_singleton.1 he]; exact hJ
  · intro e he; rw [List.mem_singleton.1 he]; exact hA
  · intro e he; rw [List.mem_singleton.1 he]; exact hA
  · intro e he; rw [List.mem_singleton.1 he]; exact hB

end Verif.L2Transfer
