import Verif.SurfaceMesh
import Mathlib.Tactic.Ring
import Mathlib.Data.List.Zip
import Mathlib.Data.List.Induction

/-! # Surface extraction: property theorems (C49) -/

namespace Verif.SurfaceMesh

/-! ## Lemmas -/

theorem setAll_length (vs : List ℕ) (a : List ℤ) : (vs.foldl (fun a v => a.set v 0) a).length = a.length := by
  induction vs generalizing a with
  | nil => rfl
  | cons v vs ih => rw [List.foldl_cons, ih, List.length_set]

theorem setAll_get (vs : List ℕ) (a : List ℤ) (i : ℕ) (hi : i < a.length) :
    (vs.foldl (fun a v => a.set v 0) a)[i]? = if i ∈ vs then some 0 else a[i]? := by
  induction vs generalizing a with
  | nil => simp
  | cons v vs ih =>
    rw [List.foldl_cons, ih _ (by simpa using hi)]
    by_cases h1 : i ∈ vs
    · simp [h1]
    · by_cases h2 : v = i
      · subst h2; simp [h1, hi]
      · have : i ≠ v := fun e => h2 e.symm
        simp [h1, this, List.getElem?_set_ne h2]

/-- A vertex is used by some selected element. -/
def Used (marker : ℕ → Bool) (els : List BE) (v : ℕ) : Prop := ∃ e ∈ els, marker e.attr = true ∧ v ∈ e.verts

/-- Body of the marking loop. -/
def body (marker : ℕ → Bool) (a : List ℤ) (e : BE) : List ℤ := if marker e.attr then e.verts.foldl (fun a v => a.set v 0) a else a

theorem body_length (marker : ℕ → Bool) (els : List BE) (a : List ℤ) : (els.foldl (body marker) a).length = a.length := by
  induction els generalizing a with
  | nil => rfl
  | cons e els ih =>
    rw [List.foldl_cons, ih, body]
    split
    · rw [setAll_length]
    · rfl

theorem body_get (marker : ℕ → Bool) (els : List BE) (a : List ℤ) (i : ℕ) (hi : i < a.length) :
    (Used marker els i → (els.foldl (body marker) a)[i]? = some 0) ∧ (¬ Used marker els i → (els.foldl (body marker) a)[i]? = a[i]?) := by
  induction els generalizing a with
  | nil => exact ⟨fun ⟨e, he, _⟩ => absurd he (by simp), fun _ => rfl⟩
  | cons e els ih =>
    have hl : i < (body marker a e).length := by
      rw [body]; split
      · rw [setAll_length]; exact hi
      · exact hi
    obtain ⟨h1, h2⟩ := ih (body marker a e) hl
    rw [List.foldl_cons]
    by_cases hu : Used marker els i
    · refine ⟨fun _ => h1 hu, fun hn => absurd ?_ hn⟩
      obtain ⟨q, hq, h⟩ := hu
      exact ⟨q, List.mem_cons_of_mem _ hq, h⟩
    · rw [h2 hu, body]
      by_cases hm : marker e.attr = true
      · rw [if_pos hm, setAll_get _ _ _ hi]
        constructor
        · rintro ⟨q, hq, hqm, hqv⟩
          rcases List.mem_cons.1 hq with rfl | hq
          · simp [hqv]
          · exact absurd ⟨q, hq, hqm, hqv⟩ hu
        · intro hn
          have : i ∉ e.verts := fun hv => hn ⟨e, by simp, hm, hv⟩
          simp [this]
      · rw [if_neg hm]
        refine ⟨?_, fun _ => rfl⟩
        rintro ⟨q, hq, hqm, hqv⟩
        rcases List.mem_cons.1 hq with rfl | hq
        · exact absurd hqm hm
        · exact absurd ⟨q, hq, hqm, hqv⟩ hu

theorem mark_eq (marker : ℕ → Bool) (nv : ℕ) (els : List BE) : mark marker nv els = els.foldl (body marker) (List.replicate nv (-1)) := rfl

theorem mark_length (marker : ℕ → Bool) (nv : ℕ) (els : List BE) : (mark marker nv els).length = nv := by
  rw [mark_eq, body_length, List.length_replicate]

theorem mark_used (marker : ℕ → Bool) (nv : ℕ) (els : List BE) (i : ℕ) (hi : i < nv) (hu : Used marker els i) : (mark marker nv els)[i]? = some 0 :=
  (body_get marker els _ i (by simpa using hi)).1 hu

theorem mark_unused (marker : ℕ → Bool) (nv : ℕ) (els : List BE) (i : ℕ) (hi : i < nv) (hu : ¬ Used marker els i) : (mark marker nv els)[i]? = some (-1) := by
  rw [mark_eq, (body_get marker els _ i (by simpa using hi)).2 hu]
  simp [hi]

theorem number_length (c : ℕ) (a : List ℤ) : (number c a).length = a.length := by
  induction a generalizing c with
  | nil => rfl
  | cons x xs ih => rw [number]; split <;> simp [ih]

/-- Numbering and vertex copy agree: the vertex numbered `k` is the `k`-th copied one. -/
theorem number_copy {P : Type} (a : List ℤ) (hz : ∀ x ∈ a, x = 0 ∨ x = -1) (ps : List P) (c : ℕ) (i : ℕ) (hai : a[i]? = some 0) (hl : a.length = ps.length) :
    ∃ k : ℕ, (number c a)[i]? = some ((c + k : ℕ) : ℤ) ∧ (copyVerts (number c a) ps)[k]? = ps[i]? ∧ k < (copyVerts (number c a) ps).length := by
  induction a generalizing c i ps with
  | nil => simp at hai
  | cons x xs ih =>
    obtain _ | ⟨p, ps⟩ := ps
    · simp at hl
    have hl' : xs.length = ps.length := by simpa using hl
    have hz' : ∀ y ∈ xs, y = 0 ∨ y = -1 := fun y hy => hz y (List.mem_cons_of_mem _ hy)
    rcases hz x (by simp) with hx | hx
    · subst hx
      rw [number, if_pos rfl, copyVerts, if_pos (Int.natCast_nonneg c)]
      cases i with
      | zero => exact ⟨0, by simp, by simp, by simp⟩
      | succ i =>
        obtain ⟨k, h1, h2, h3⟩ := ih hz' ps (c + 1) i (by simpa using hai) hl'
        refine ⟨k + 1, ?_, ?_, ?_⟩
        · rw [List.getElem?_cons_succ, h1]; congr 2; omega
        · simpa using h2
        · simpa using h3
    · subst hx
      rw [number, if_neg (by decide), copyVerts, if_neg (by decide)]
      cases i with
      | zero => simp at hai
      | succ i =>
        obtain ⟨k, h1, h2, h3⟩ := ih hz' ps c i (by simpa using hai) hl'
        exact ⟨k, by simpa using h1, by simpa using h2, h3⟩

theorem number_neg (a : List ℤ) (c i : ℕ) (h : a[i]? = some (-1)) : (number c a)[i]? = some (-1) := by
  induction a generalizing c i with
  | nil => simp at h
  | cons x xs ih =>
    rw [number]
    cases i with
    | zero =>
      have : x = -1 := by simpa using h
      subst this; simp
    | succ i => split <;> simpa using ih _ i (by simpa using h)

theorem number_ge (a : List ℤ) (hz : ∀ x ∈ a, x = 0 ∨ x = -1) (c i : ℕ) (z : ℤ) (h : (number c a)[i]? = some z) : z = -1 ∨ (c : ℤ) ≤ z := by
  induction a generalizing c i with
  | nil => simp [number] at h
  | cons x xs ih =>
    have hz' : ∀ y ∈ xs, y = 0 ∨ y = -1 := fun y hy => hz y (List.mem_cons_of_mem _ hy)
    rw [number] at h
    rcases hz x (by simp) with hx | hx
    · subst hx
      rw [if_pos rfl] at h
      cases i with
      | zero => right; simp at h; omega
      | succ i => rcases ih hz' (c + 1) i (by simpa using h) with e | e
                  · exact Or.inl e
                  · right; omega
    · subst hx
      rw [if_neg (by decide)] at h
      cases i with
      | zero => left; simp at h; omega
      | succ i => exact ih hz' c i (by simpa using h)

theorem number_inj (a : List ℤ) (hz : ∀ x ∈ a, x = 0 ∨ x = -1) (c i j : ℕ) (z : ℤ) (hzn : 0 ≤ z) (hi : (number c a)[i]? = some z) (hj : (number c a)[j]? = some z) : i = j := by
  induction a generalizing c i j with
  | nil => simp [number] at hi
  | cons x xs ih =>
    have hz' : ∀ y ∈ xs, y = 0 ∨ y = -1 := fun y hy => hz y (List.mem_cons_of_mem _ hy)
    rw [number] at hi hj
    rcases hz x (by simp) with hx | hx
    · subst hx
      rw [if_pos rfl] at hi hj
      cases i with
      | zero =>
        cases j with
        | zero => rfl
        | succ j =>
          simp at hi
          rcases number_ge xs hz' (c + 1) j z (by simpa using hj) with e | e <;> omega
      | succ i =>
        cases j with
        | zero =>
          simp at hj
          rcases number_ge xs hz' (c + 1) i z (by simpa using hi) with e | e <;> omega
        | succ j => rw [ih hz' (c + 1) i j (by simpa using hi) (by simpa using hj)]
    · subst hx
      rw [if_neg (by decide)] at hi hj
      cases i with
      | zero => simp at hi; omega
      | succ i =>
        cases j with
        | zero => simp at hj; omega
        | succ j => rw [ih hz' c i j (by simpa using hi) (by simpa using hj)]

theorem mark_entries (marker : ℕ → Bool) (nv : ℕ) (els : List BE) : ∀ x ∈ mark marker nv els, x = 0 ∨ x = -1 := by
  intro x hx
  obtain ⟨i, hi, rfl⟩ := List.mem_iff_getElem.1 hx
  have hi' : i < nv := by rwa [mark_length] at hi
  by_cases hu : Used marker els i
  · left; have := mark_used marker nv els i hi' hu; rw [List.getElem?_eq_getElem hi] at this; simpa using this
  · right; have := mark_unused marker nv els i hi' hu; rw [List.getElem?_eq_getElem hi] at this; simpa using this

/-- The number of copied vertices at least covers every index that is produced, and each copied vertex comes from a used volume vertex. -/
theorem copy_source {P : Type} (a : List ℤ) (hz : ∀ x ∈ a, x = 0 ∨ x = -1) (ps : List P) (c k : ℕ) (hl : a.length = ps.length) (hk : k < (copyVerts (number c a) ps).length) :
    ∃ i : ℕ, a[i]? = some 0 ∧ (number c a)[i]? = some ((c + k : ℕ) : ℤ) := by
  induction a generalizing c k ps with
  | nil => simp [number, copyVerts] at hk
  | cons x xs ih =>
    obtain _ | ⟨p, ps⟩ := ps
    · simp at hl
    have hl' : xs.length = ps.length := by simpa using hl
    have hz' : ∀ y ∈ xs, y = 0 ∨ y = -1 := fun y hy => hz y (List.mem_cons_of_mem _ hy)
    rcases hz x (by simp) with hx | hx
    · subst hx
      rw [number, if_pos rfl, copyVerts, if_pos (Int.natCast_nonneg c)] at hk
      rw [number, if_pos rfl]
      cases k with
      | zero => exact ⟨0, by simp, by simp⟩
      | succ k =>
        obtain ⟨i, h1, h2⟩ := ih hz' ps (c + 1) k hl' (by simpa using hk)
        refine ⟨i + 1, by simpa using h1, ?_⟩
        rw [List.getElem?_cons_succ, h2]; congr 2; omega
    · subst hx
      rw [number, if_neg (by decide), copyVerts, if_neg (by decide)] at hk
      rw [number, if_neg (by decide)]
      obtain ⟨i, h1, h2⟩ := ih hz' ps c k hl' hk
      exact ⟨i + 1, by simpa using h1, by simpa using h2⟩

/-! ## C49 -/

/-- C49.  The surface mesh has one element per selected boundary element, in order, with the same attribute; and the `j`-th vertex of the surface element has the coordinates of the `j`-th vertex
of the boundary element it came from. -/
theorem C49_elements_and_coordinates {P : Type} (marker : ℕ → Bool) (coords : List P) (els : List BE) (hv : ∀ e ∈ els, ∀ v ∈ e.verts, v < coords.length) :
    let s := surface marker coords els
    let sel := els.filter (fun e => marker e.attr)
    s.2.length = sel.length ∧ ∀ (k : ℕ) (e : BE), sel[k]? = some e → ∃ row : List ℤ, s.2[k]? = some (e.attr, row) ∧ row.length = e.verts.length ∧
      ∀ (j v : ℕ), e.verts[j]? = some v → ∃ u : ℕ, row[j]? = some (u : ℤ) ∧ s.1[u]? = coords[v]? ∧ u < s.1.length := by
  intro s sel
  refine ⟨by simp [s, sel, surface, copyElems], ?_⟩
  intro k e hk
  refine ⟨e.verts.map (fun v => (v2v marker coords.length els).getD v (-1)), by simp only [s, surface, copyElems, List.getElem?_map]; rw [hk]; rfl, by simp, ?_⟩
  intro j v hj
  have hmem : e ∈ els ∧ marker e.attr = true := List.mem_filter.1 (List.mem_of_getElem? hk)
  have hvm : v ∈ e.verts := List.mem_of_getElem? hj
  have hvl := hv e hmem.1 v hvm
  have h0 := mark_used marker coords.length els v hvl ⟨e, hmem.1, hmem.2, hvm⟩
  obtain ⟨u, h1, h2, h3⟩ := number_copy _ (mark_entries marker coords.length els) coords 0 v h0 (mark_length _ _ _)
  refine ⟨u, ?_, h2, h3⟩
  rw [List.getElem?_map, hj]
  simp only [Option.map_some, v2v, List.getD_eq_getElem?_getD, h1]
  simp

/-- C49.  The renumbering is a bijection between the volume vertices used by selected elements and the surface vertices: used vertices get a valid index, unused ones none, distinct vertices distinct indices,
and every surface vertex comes from a used volume vertex. -/
theorem C49_renumbering_bijective {P : Type} (marker : ℕ → Bool) (coords : List P) (els : List BE) :
    let m := v2v marker coords.length els
    let s := surface marker coords els
    (∀ v < coords.length, Used marker els v → ∃ u : ℕ, m[v]? = some (u : ℤ) ∧ u < s.1.length) ∧
    (∀ v < coords.length, ¬ Used marker els v → m[v]? = some (-1)) ∧
    (∀ v w u : ℕ, m[v]? = some (u : ℤ) → m[w]? = some (u : ℤ) → v = w) ∧
    (∀ u < s.1.length, ∃ v : ℕ, v < coords.length ∧ Used marker els v ∧ m[v]? = some (u : ℤ)) := by
  refine ⟨?_, ?_, ?_, ?_⟩
  · intro v hv hu
    obtain ⟨u, h1, -, h3⟩ := number_copy _ (mark_entries marker coords.length els) coords 0 v (mark_used marker _ els v hv hu) (mark_length _ _ _)
    exact ⟨u, by simpa [v2v] using h1, h3⟩
  · intro v hv hu
    exact number_neg _ 0 v (mark_unused marker _ els v hv hu)
  · intro v w u h1 h2
    exact number_inj _ (mark_entries marker coords.length els) 0 v w u (Int.natCast_nonneg u) h1 h2
  · intro u hu
    obtain ⟨v, h1, h2⟩ := copy_source _ (mark_entries marker coords.length els) coords 0 u (mark_length _ _ _) hu
    have hvl : v < coords.length := by
      have := (List.getElem?_eq_some_iff.1 h1).1
      rwa [mark_length] at this
    refine ⟨v, hvl, ?_, by simpa [v2v] using h2⟩
    by_contra hn
    rw [mark_unused marker _ els v hvl hn] at h1
    simp at h1

/-- Vertices keep their relative order (the numbering is by volume vertex number, not by first appearance). -/
theorem C49_order_preserved (marker : ℕ → Bool) (nv : ℕ) (els : List BE) (v w u u' : ℕ) (h1 : (v2v marker nv els)[v]? = some (u : ℤ)) (h2 : (v2v marker nv els)[w]? = some (u' : ℤ)) (hvw : v < w) :
    u < u' := by
  have key : ∀ (a : List ℤ), (∀ x ∈ a, x = 0 ∨ x = -1) → ∀ c v w u u' : ℕ, (number c a)[v]? = some (u : ℤ) → (number c a)[w]? = some (u' : ℤ) → v < w → u < u' := by
    intro a
    induction a with
    | nil => intro _ c v w u u' h; simp [number] at h
    | cons x xs ih =>
      intro hz c v w u u' h1 h2 hvw
      have hz' : ∀ y ∈ xs, y = 0 ∨ y = -1 := fun y hy => hz y (List.mem_cons_of_mem _ hy)
      obtain ⟨w, rfl⟩ : ∃ w', w = w' + 1 := ⟨w - 1, by omega⟩
      rw [number] at h1 h2
      rcases hz x (by simp) with hx | hx
      · subst hx
        rw [if_pos rfl] at h1 h2
        cases v with
        | zero =>
          simp at h1
          rcases number_ge xs hz' (c + 1) w u' (by simpa using h2) with e | e <;> omega
        | succ v => exact ih hz' (c + 1) v w u u' (by simpa using h1) (by simpa using h2) (by omega)
      · subst hx
        rw [if_neg (by decide)] at h1 h2
        cases v with
        | zero => simp at h1
        | succ v => exact ih hz' c v w u u' (by simpa using h1) (by simpa using h2) (by omega)
  exact key _ (mark_entries marker nv els) 0 v w u u' h1 h2 hvw

/-- Non-vacuity: a mesh with five vertices; the two selected elements share vertex 4. -/
example : (surface (fun a => a == 2) [10, 11, 12, 13, 14] [⟨1, [0, 1]⟩, ⟨2, [4, 1]⟩, ⟨2, [3, 4]⟩] : List ℕ × List (ℕ × List ℤ)) = ([11, 13, 14], [(2, [2, 0]), (2, [1, 2])]) := by decide

/-! ### Copy of the node coordinates -/

theorem setSub_spec {K : Type} (vs : List ℕ) (f : ℕ → ℤ) (hf : ∀ v ∈ vs, ∀ w, f v = f w → v = w) (nodes : ℕ → K) (b : ℤ → K) (w : ℕ) :
    setSub (vs.map f) (vs.map nodes) b (f w) = if w ∈ vs then nodes w else b (f w) := by
  induction vs generalizing b with
  | nil => simp [setSub]
  | cons v vs ih =>
    have : setSub ((v :: vs).map f) ((v :: vs).map nodes) b = setSub (vs.map f) (vs.map nodes) (Function.update b (f v) (nodes v)) := rfl
    rw [this, ih (fun x hx => hf x (List.mem_cons_of_mem _ hx))]
    by_cases h1 : w ∈ vs
    · simp [h1]
    · by_cases h2 : v = w
      · subst h2; simp [h1]
      · have : f w ≠ f v := fun e => h2 (hf v (by simp) w e.symm)
        have h3 : w ≠ v := fun e => h2 e.symm
        simp [h1, h3, Function.update_of_ne this]

/-- Two vertices share a surface index only if equal, when the first is used by a selected element. -/
theorem f_inj (marker : ℕ → Bool) (nv : ℕ) (els : List BE) (hv : ∀ e ∈ els, ∀ v ∈ e.verts, v < nv) (e : BE) (he : e ∈ els) (hm : marker e.attr = true) (v : ℕ) (hve : v ∈ e.verts) (w : ℕ)
    (h : (v2v marker nv els).getD v (-1) = (v2v marker nv els).getD w (-1)) : v = w := by
  have h0 := mark_used marker nv els v (hv e he v hve) ⟨e, he, hm, hve⟩
  obtain ⟨u, h1, -⟩ := number_copy _ (mark_entries marker nv els) (List.range nv) 0 v h0 (by rw [mark_length, List.length_range])
  rw [List.getD_eq_getElem?_getD, v2v, h1] at h
  rw [List.getD_eq_getElem?_getD] at h
  cases hw : (number 0 (mark marker nv els))[w]? with
  | none => rw [hw] at h; simp at h
  | some z =>
    rw [hw] at h
    simp only [Option.getD_some] at h
    exact number_inj _ (mark_entries marker nv els) 0 v w _ (Int.natCast_nonneg _) h1 (by rw [hw, ← h])

/-- C49 (nodes).  If the selected boundary elements are exactly the first ones (in particular if all are selected), the copied nodal function gives every vertex of the surface its coordinates.
The full property asks this for every marker array; see `C49_nodes_defined_iff` for what happens otherwise. -/
theorem C49_nodes_partial {K : Type} (marker : ℕ → Bool) (nv : ℕ) (pre post : List BE) (hpre : ∀ e ∈ pre, marker e.attr = true) (hpost : ∀ e ∈ post, marker e.attr = false)
    (hv : ∀ e ∈ pre ++ post, ∀ v ∈ e.verts, v < nv) (nodes : ℕ → K) (b0 : ℤ → K) :
    ∃ b, copyNodes marker (copyElems marker (v2v marker nv (pre ++ post)) (pre ++ post)) nodes 0 (pre ++ post) b0 = some b ∧
      ∀ e ∈ pre, ∀ v ∈ e.verts, b ((v2v marker nv (pre ++ post)).getD v (-1)) = nodes v := by
  set els := pre ++ post with hels
  set f : ℕ → ℤ := fun v => (v2v marker nv els).getD v (-1) with hf
  have hsurf : copyElems marker (v2v marker nv els) els = pre.map (fun e => (e.attr, e.verts.map f)) := by
    have h1 : els.filter (fun e => marker e.attr) = pre := by
      rw [hels, List.filter_append, List.filter_eq_self.2 hpre, List.filter_eq_nil_iff.2 (fun e he => by simp [hpost e he]), List.append_nil]
    rw [copyElems, h1]
  have hpostrun : ∀ (post : List BE), (∀ e ∈ post, marker e.attr = false) → ∀ i surf (b : ℤ → K), copyNodes marker surf nodes i post b = some b := by
    intro post
    induction post with
    | nil => intro _ i surf b; rfl
    | cons e es ih => intro h i surf b; rw [copyNodes, if_neg (by simp [h e (by simp)])]; exact ih (fun q hq => h q (List.mem_cons_of_mem _ hq)) _ _ _
  have main : ∀ (done todo : List BE) (b : ℤ → K), pre = done ++ todo → (∀ e ∈ done, ∀ v ∈ e.verts, b (f v) = nodes v) →
      ∃ b', copyNodes marker (pre.map (fun e => (e.attr, e.verts.map f))) nodes done.length (todo ++ post) b = some b' ∧ ∀ e ∈ pre, ∀ v ∈ e.verts, b' (f v) = nodes v := by
    intro done todo
    induction todo generalizing done with
    | nil =>
      intro b hp hb
      rw [List.append_nil] at hp
      exact ⟨b, by rw [List.nil_append]; exact hpostrun post hpost _ _ _, by rw [hp]; exact hb⟩
    | cons e todo ih =>
      intro b hp hb
      have hget : (pre.map (fun e => (e.attr, e.verts.map f)))[done.length]? = some (e.attr, e.verts.map f) := by
        rw [hp]; simp
      have hep : e ∈ pre := by rw [hp]; simp
      rw [List.cons_append, copyNodes, if_pos (hpre e hep), hget]
      have h2 := ih (done ++ [e]) (setSub (e.verts.map f) (e.verts.map nodes) b) (by rw [hp]; simp) ?_
      · simpa using h2
      · intro q hq v hqv
        have hinj : ∀ v ∈ e.verts, ∀ w, f v = f w → v = w := fun v hv' w hw =>
          f_inj marker nv els hv e (by rw [hels]; exact List.mem_append_left _ hep) (hpre e hep) v hv' w hw
        rw [setSub_spec e.verts f hinj nodes b v]
        by_cases h3 : v ∈ e.verts
        · simp [h3]
        · rw [if_neg h3]
          rcases List.mem_append.1 hq with hq | hq
          · exact hb q hq v hqv
          · rw [List.mem_singleton.1 hq] at hqv; exact absurd hqv h3
  obtain ⟨b, h1, h2⟩ := main [] pre b0 (by simp) (by simp)
  exact ⟨b, by rw [hsurf]; simpa using h1, h2⟩

/-- C49 (nodes).  The copy stays in bounds *exactly* when the selected elements come first: for every other marker array it indexes the surface mesh with a volume boundary-element
number beyond its last element. -/
theorem C49_nodes_defined_iff {K : Type} (marker : ℕ → Bool) (m : List ℤ) (els : List BE) (nodes : ℕ → K) (b0 : ℤ → K) :
    (copyNodes marker (copyElems marker m els) nodes 0 els b0).isSome ↔ ∀ i e, els[i]? = some e → (marker e.attr = true ↔ i < (els.filter (fun e => marker e.attr)).length) := by
  have hlen : (copyElems marker m els).length = (els.filter (fun e => marker e.attr)).length := by simp [copyElems]
  -- defined iff every selected index is in range
  have h1 : ∀ (surf : List (ℕ × List ℤ)) (es : List BE) (i : ℕ) (b : ℤ → K), (copyNodes marker surf nodes i es b).isSome ↔ ∀ j e, es[j]? = some e → marker e.attr = true → i + j < surf.length := by
    intro surf es
    induction es with
    | nil => intro i b; simp [copyNodes]
    | cons e es ih =>
      intro i b
      have hshift : (∀ j q, (e :: es)[j]? = some q → marker q.attr = true → i + j < surf.length) ↔ (marker e.attr = true → i < surf.length) ∧ ∀ j q, es[j]? = some q → marker q.attr = true → i + 1 + j < surf.length := by
        constructor
        · intro h
          refine ⟨fun hm => by simpa using h 0 e rfl hm, fun j q hq hm => ?_⟩
          have := h (j + 1) q (by simpa using hq) hm
          omega
        · rintro ⟨ha, hb⟩ j q hq hm
          cases j with
          | zero =>
            have : e = q := by simpa using hq
            subst this
            simpa using ha hm
          | succ j =>
            have := hb j q (by simpa using hq) hm
            omega
      rw [hshift, copyNodes]
      by_cases hm : marker e.attr = true
      · rw [if_pos hm]
        cases hs : surf[i]? with
        | none =>
          have : ¬ i < surf.length := by
            rw [List.getElem?_eq_none_iff] at hs; omega
          simp [hm, this]
        | some row =>
          have : i < surf.length := (List.getElem?_eq_some_iff.1 hs).1
          simp only [hm, this, forall_const, true_and]
          exact ih (i + 1) _
      · rw [if_neg hm, ih]; simp [hm]
  -- counting
  have h2 : ∀ (es : List BE), (∀ j e, es[j]? = some e → marker e.attr = true → j < (es.filter (fun e => marker e.attr)).length) →
      ∀ j e, es[j]? = some e → j < (es.filter (fun e => marker e.attr)).length → marker e.attr = true := by
    intro es
    induction es using List.reverseRecOn with
    | nil => intro _ j e h; simp at h
    | append_singleton es q ih =>
      intro h j e hj hlt
      have hle : (es.filter (fun e => marker e.attr)).length ≤ es.length := List.length_filter_le _ _
      by_cases hm : marker q.attr = true
      · have hq := h es.length q (by simp) hm
        rw [List.filter_append, List.filter_cons_of_pos (by simpa using hm), List.length_append] at hq
        simp at hq
        -- all of es selected
        have hall : es.filter (fun e => marker e.attr) = es := List.Sublist.eq_of_length List.filter_sublist (by omega)
        by_cases hjl : j < es.length
        · rw [List.getElem?_append_left hjl] at hj
          have : e ∈ es := List.mem_of_getElem? hj
          rw [← hall] at this
          exact (List.mem_filter.1 this).2
        · rw [List.getElem?_append_right (by omega)] at hj
          have hj0 : j - es.length = 0 := by
            by_contra hne
            rw [List.getElem?_eq_none (by simp; omega)] at hj
            simp at hj
          rw [hj0] at hj
          have : q = e := by simpa using hj
          rw [← this]; exact hm
      · rw [List.filter_append, List.filter_cons_of_neg (by simpa using hm), List.filter_nil, List.append_nil] at h hlt
        have hjl : j < es.length := by omega
        rw [List.getElem?_append_left hjl] at hj
        refine ih ?_ j e hj hlt
        intro j' e' hj' hm'
        have hjl' : j' < es.length := (List.getElem?_eq_some_iff.1 hj').1
        exact h j' e' (by rw [List.getElem?_append_left hjl']; exact hj') hm'
  rw [h1, hlen]
  constructor
  · intro h i e he
    refine ⟨fun hm => by simpa using h i e he hm, h2 els (fun j q hq hm => by simpa using h j q hq hm) i e he⟩
  · intro h j e he hm
    simpa using (h j e he).1 hm

/-- Two elements, only the second selected: the copy runs out of bounds. -/
theorem C49_nodes_false : ∃ (marker : ℕ → Bool) (els : List BE), (copyNodes marker (copyElems marker (v2v marker 3 els) els) (fun v => v) 0 els (fun _ => 0)).isSome = false :=
  ⟨fun a => a == 2, [⟨1, [0, 1]⟩, ⟨2, [1, 2]⟩], by decide⟩

/-- Non-vacuity of `C49_nodes_partial`: the first two of three elements selected. -/
example : (∀ e ∈ ([⟨2, [4, 1]⟩, ⟨2, [3, 4]⟩] : List BE), (fun a => a == 2) e.attr = true) ∧ (∀ e ∈ ([⟨1, [0, 1]⟩] : List BE), (fun a : ℕ => a == 2) e.attr = false) := by decide

end Verif.SurfaceMesh
