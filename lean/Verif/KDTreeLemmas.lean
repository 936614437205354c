import Verif.KDTree
import Mathlib.Tactic.Linarith
import Mathlib.Tactic.NormNum

/-! Helper lemmas for the k-d tree (not property statements). -/

namespace Verif.KDTree

variable {K : Type} [Field K] [LinearOrder K]

/-- In-order list of the nodes of a tree. -/
def Tree.toList : Tree K → List (Node K)
  | .leaf => []
  | .node l x r => l.toList ++ x :: r.toList

/-- Search-tree invariant in coordinate `index`, cycling through the dimensions. -/
def Inv (dim : ℕ) : ℕ → Tree K → Prop
  | _, .leaf => True
  | i, .node l x r =>
    (∀ y ∈ l.toList, y.pt i ≤ x.pt i) ∧ (∀ y ∈ r.toList, x.pt i ≤ y.pt i) ∧
    Inv dim ((i + 1) % dim) l ∧ Inv dim ((i + 1) % dim) r

omit [Field K] in
theorem MakeTree.toList_perm {dim i : ℕ} {l : List (Node K)} {t : Tree K}
    (h : MakeTree dim i l t) : List.Perm l t.toList := by
  induction h with
  | nil => exact List.Perm.refl _
  | cons index l L R x tl tr hne hnth hl hr ihl ihr =>
    exact hnth.perm.trans (ihl.append (ihr.cons x))

omit [Field K] in
theorem MakeTree.inv {dim i : ℕ} {l : List (Node K)} {t : Tree K}
    (h : MakeTree dim i l t) : Inv dim i t := by
  induction h with
  | nil => trivial
  | cons index l L R x tl tr hne hnth hl hr ihl ihr =>
    refine ⟨?_, ?_, ihl, ihr⟩
    · intro y hy
      exact not_lt.mp (hnth.left_le y (hl.toList_perm.mem_iff.mpr hy))
    · intro y hy
      exact not_lt.mp (hnth.right_ge y (hr.toList_perm.mem_iff.mpr hy))

variable [IsStrictOrderedRing K]

theorem distance_nonneg (dim : ℕ) (p q : ℕ → K) : 0 ≤ distance dim p q := by
  induction dim with
  | zero => exact le_refl _
  | succ n ih => exact add_nonneg ih (mul_self_nonneg _)

theorem coord_le_distance (dim : ℕ) (p q : ℕ → K) (i : ℕ) (hi : i < dim) :
    (p i - q i) * (p i - q i) ≤ distance dim p q := by
  induction dim with
  | zero => omega
  | succ n ih =>
    simp only [distance]
    rcases Nat.lt_succ_iff_lt_or_eq.mp hi with h | h
    · have := ih h
      have := mul_self_nonneg (p n - q n)
      linarith
    · subst h
      have := distance_nonneg i p q
      linarith

/-- What a search state knows: its best node realises `bestDist`. -/
def Good (dim : ℕ) (q : ℕ → K) (s : Search K) : Prop :=
  ∀ b, s.best = some b → s.bestDist = distance dim b.pt q

omit [IsStrictOrderedRing K] in
theorem visit_good {dim : ℕ} {q : ℕ → K} {x : Node K} {s : Search K} (h : Good dim q s) :
    Good dim q (visit dim q x s) := by
  intro b hb
  unfold visit at *
  cases hs : s.best with
  | none => simp only [hs] at hb ⊢; injection hb with hb; rw [hb]
  | some c =>
    simp only [hs] at hb ⊢
    split_ifs at hb ⊢ with h1
    · injection hb with hb; rw [hb]
    · exact h b (hs.trans hb)

omit [IsStrictOrderedRing K] in
theorem visit_some (dim : ℕ) (q : ℕ → K) (x : Node K) (s : Search K) :
    ∃ b, (visit dim q x s).best = some b ∧ (b = x ∨ s.best = some b) := by
  unfold visit
  cases hs : s.best with
  | none => exact ⟨x, rfl, Or.inl rfl⟩
  | some c =>
    simp only
    split_ifs
    · exact ⟨x, rfl, Or.inl rfl⟩
    · exact ⟨c, rfl, Or.inr rfl⟩

omit [IsStrictOrderedRing K] in
theorem visit_le_self (dim : ℕ) (q : ℕ → K) (x : Node K) (s : Search K) :
    (visit dim q x s).bestDist ≤ distance dim x.pt q := by
  unfold visit
  cases hs : s.best with
  | none => exact le_refl _
  | some c =>
    simp only
    split_ifs with h
    · exact le_refl _
    · exact not_lt.mp h

omit [IsStrictOrderedRing K] in
theorem visit_le_old (dim : ℕ) (q : ℕ → K) (x : Node K) (s : Search K) (h : s.best ≠ none) :
    (visit dim q x s).bestDist ≤ s.bestDist := by
  unfold visit
  cases hs : s.best with
  | none => exact absurd hs h
  | some c =>
    simp only
    split_ifs with h
    · exact h.le
    · exact le_refl _

omit [IsStrictOrderedRing K] in
theorem visit_visited (dim : ℕ) (q : ℕ → K) (x : Node K) (s : Search K) :
    (visit dim q x s).visited = s.visited + 1 := by
  unfold visit
  cases hs : s.best with
  | none => rfl
  | some c => simp only; split_ifs <;> rfl

/-- The main search lemma. -/
theorem nearestRec_spec (dim : ℕ) (hd : 0 < dim) (q : ℕ → K) (t : Tree K) :
    ∀ (i : ℕ) (s : Search K), i < dim → Inv dim i t → Good dim q s →
      Good dim q (nearestRec dim q t i s) ∧
      (∀ y ∈ t.toList, (nearestRec dim q t i s).bestDist ≤ distance dim y.pt q) ∧
      (s.best ≠ none → (nearestRec dim q t i s).bestDist ≤ s.bestDist) ∧
      (∀ b, (nearestRec dim q t i s).best = some b → b ∈ t.toList ∨ s.best = some b) ∧
      (s.best ≠ none ∨ t.toList ≠ [] → (nearestRec dim q t i s).best ≠ none) := by
  induction t with
  | leaf =>
    intro i s _ _ hg
    refine ⟨hg, ?_, fun _ => le_refl _, fun b hb => Or.inr hb, ?_⟩
    · intro y hy; simp [Tree.toList] at hy
    · rintro (h | h)
      · exact h
      · exact absurd rfl h
  | node l x r ihl ihr =>
    intro i s hi hinv hg
    obtain ⟨hleft, hright, hil, hir⟩ := hinv
    have hi' : (i + 1) % dim < dim := Nat.mod_lt _ hd
    set s1 := visit dim q x s with hs1
    have hg1 : Good dim q s1 := visit_good hg
    obtain ⟨b1, hb1, hb1'⟩ := visit_some dim q x s
    rw [← hs1] at hb1
    have hne1 : s1.best ≠ none := by rw [hb1]; simp
    have hle1 : s1.bestDist ≤ distance dim x.pt q := visit_le_self dim q x s
    have hold1 : s.best ≠ none → s1.bestDist ≤ s.bestDist := visit_le_old dim q x s
    have hmem1 : ∀ b, s1.best = some b → b ∈ (Tree.node l x r).toList ∨ s.best = some b := by
      intro b hb
      rw [hb1] at hb; injection hb with hb; subst hb
      rcases hb1' with h | h
      · left; simp [Tree.toList, h]
      · exact Or.inr h
    have hL := ihl ((i + 1) % dim)
    have hR := ihr ((i + 1) % dim)
    have memL : ∀ y ∈ l.toList, y ∈ (Tree.node l x r).toList := by
      intro y hy; simp [Tree.toList, hy]
    have memR : ∀ y ∈ r.toList, y ∈ (Tree.node l x r).toList := by
      intro y hy; simp [Tree.toList, hy]
    have cases_mem : ∀ y ∈ (Tree.node l x r).toList, y ∈ l.toList ∨ y = x ∨ y ∈ r.toList := by
      intro y hy
      simpa [Tree.toList, or_assoc] using hy
    unfold nearestRec
    simp only [← hs1]
    split_ifs with h0 hdx hp hp
    · -- distance zero
      refine ⟨hg1, ?_, hold1, hmem1, fun _ => hne1⟩
      intro y _
      rw [h0]; exact distance_nonneg _ _ _
    · -- near = left, far pruned
      obtain ⟨g2, a2, o2, m2, n2⟩ := hL s1 hi' hil hg1
      refine ⟨g2, ?_, fun h => (o2 hne1).trans (hold1 h), ?_, fun _ => n2 (Or.inl hne1)⟩
      · intro y hy
        rcases cases_mem y hy with hy | rfl | hy
        · exact a2 y hy
        · exact (o2 hne1).trans hle1
        · have h1 := coord_le_distance dim y.pt q i hi
          have h2 := hright y hy
          have h3 : 0 < x.pt i - q i := hdx
          nlinarith
      · intro b hb
        rcases m2 b hb with h | h
        · exact Or.inl (memL b h)
        · exact hmem1 b h
    · -- near = left, then far = right
      obtain ⟨g2, a2, o2, m2, n2⟩ := hL s1 hi' hil hg1
      have hne2 := n2 (Or.inl hne1)
      obtain ⟨g3, a3, o3, m3, n3⟩ := hR _ hi' hir g2
      refine ⟨g3, ?_, fun h => ((o3 hne2).trans (o2 hne1)).trans (hold1 h), ?_,
        fun _ => n3 (Or.inl hne2)⟩
      · intro y hy
        rcases cases_mem y hy with hy | rfl | hy
        · exact (o3 hne2).trans (a2 y hy)
        · exact ((o3 hne2).trans (o2 hne1)).trans hle1
        · exact a3 y hy
      · intro b hb
        rcases m3 b hb with h | h
        · exact Or.inl (memR b h)
        · rcases m2 b h with h | h
          · exact Or.inl (memL b h)
          · exact hmem1 b h
    · -- near = right, far pruned
      obtain ⟨g2, a2, o2, m2, n2⟩ := hR s1 hi' hir hg1
      refine ⟨g2, ?_, fun h => (o2 hne1).trans (hold1 h), ?_, fun _ => n2 (Or.inl hne1)⟩
      · intro y hy
        rcases cases_mem y hy with hy | rfl | hy
        · have h1 := coord_le_distance dim y.pt q i hi
          have h2 := hleft y hy
          have h3 : x.pt i - q i ≤ 0 := not_lt.mp hdx
          nlinarith
        · exact (o2 hne1).trans hle1
        · exact a2 y hy
      · intro b hb
        rcases m2 b hb with h | h
        · exact Or.inl (memR b h)
        · exact hmem1 b h
    · -- near = right, then far = left
      obtain ⟨g2, a2, o2, m2, n2⟩ := hR s1 hi' hir hg1
      have hne2 := n2 (Or.inl hne1)
      obtain ⟨g3, a3, o3, m3, n3⟩ := hL _ hi' hil g2
      refine ⟨g3, ?_, fun h => ((o3 hne2).trans (o2 hne1)).trans (hold1 h), ?_,
        fun _ => n3 (Or.inl hne2)⟩
      · intro y hy
        rcases cases_mem y hy with hy | rfl | hy
        · exact a3 y hy
        · exact ((o3 hne2).trans (o2 hne1)).trans hle1
        · exact (o3 hne2).trans (a2 y hy)
      · intro b hb
        rcases m3 b hb with h | h
        · exact Or.inl (memL b h)
        · rcases m2 b h with h | h
          · exact Or.inl (memR b h)
          · exact hmem1 b h

omit [IsStrictOrderedRing K] in
theorem nearestRec_visited (dim : ℕ) (q : ℕ → K) (t : Tree K) :
    ∀ (i : ℕ) (s : Search K),
      s.visited ≤ (nearestRec dim q t i s).visited ∧
      (nearestRec dim q t i s).visited ≤ s.visited + t.toList.length ∧
      (t.toList ≠ [] → s.visited < (nearestRec dim q t i s).visited) := by
  induction t with
  | leaf => intro i s; simp [nearestRec, Tree.toList]
  | node l x r ihl ihr =>
    intro i s
    have hv := visit_visited dim q x s
    unfold nearestRec
    simp only [Tree.toList, List.length_append, List.length_cons]
    set s1 := visit dim q x s
    have L1 := ihl ((i + 1) % dim) s1
    have R1 := ihr ((i + 1) % dim) s1
    have L2 := ihl ((i + 1) % dim) (nearestRec dim q r ((i + 1) % dim) s1)
    have R2 := ihr ((i + 1) % dim) (nearestRec dim q l ((i + 1) % dim) s1)
    split_ifs <;> omega

omit [Field K] in
theorem makeTreeSort_spec (dim : ℕ) : ∀ (fuel i : ℕ) (l : List (Node K)),
    l.length ≤ fuel → MakeTree dim i l (makeTreeSort dim fuel i l) := by
  intro fuel
  induction fuel with
  | zero =>
    intro i l h
    have : l = [] := List.length_eq_zero_iff.mp (by omega)
    subst this; exact .nil i
  | succ f ih =>
    intro i l h
    unfold makeTreeSort
    simp only
    generalize hs : l.insertionSort (fun a b => a.pt i ≤ b.pt i) = s
    have hp : List.Perm s l := hs ▸ List.perm_insertionSort _ l
    have hlen : s.length = l.length := hp.length_eq
    have : Std.Total (fun a b : Node K => a.pt i ≤ b.pt i) := ⟨fun a b => le_total _ _⟩
    have : IsTrans (Node K) (fun a b => a.pt i ≤ b.pt i) := ⟨fun a b c => le_trans⟩
    have hsort : s.Pairwise (fun a b => a.pt i ≤ b.pt i) := hs ▸ List.pairwise_insertionSort _ l
    have hsplit : s = s.take (s.length / 2) ++ s.drop (s.length / 2) := (List.take_append_drop _ _).symm
    cases hd : s.drop (s.length / 2) with
    | nil =>
      have : s.length ≤ s.length / 2 := by simpa using hd
      have hl0 : l = [] := List.length_eq_zero_iff.mp (by omega)
      subst hl0; exact .nil i
    | cons x R =>
      rw [hd] at hsplit
      have hlp : (s.take (s.length / 2)).length = s.length / 2 := by
        rw [List.length_take]; omega
      have hR : R.length + 1 = s.length - s.length / 2 := by
        have := congrArg List.length hd
        simpa using this.symm
      have hpw := hsort
      rw [hsplit] at hpw
      rw [List.pairwise_append] at hpw
      obtain ⟨_, h2, h3⟩ := hpw
      refine .cons i l _ R x _ _ ?_ ⟨?_, ?_, ?_, ?_⟩ (ih _ _ ?_) (ih _ _ ?_)
      · rintro rfl; rw [List.length_nil] at hlen; omega
      · rw [← hsplit]; exact hp.symm
      · rw [hlp, hlen]
      · intro y hy
        exact not_lt.mpr (h3 y hy x (by simp))
      · intro y hy
        exact not_lt.mpr ((List.pairwise_cons.mp h2).1 y hy)
      · rw [hlp]; omega
      · omega

end Verif.KDTree
