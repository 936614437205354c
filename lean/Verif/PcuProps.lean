import Verif.Pcu
import Mathlib.Data.List.Basic

/-! # PCU handling: property theorems (C48) -/

set_option linter.unusedSimpArgs false

namespace Verif.Pcu

/-! ## Specification: what a legal trace of library events looks like -/

/-- `Legal up t`: starting with the library up (`true`) or down, the events `t` are legal: initialised only when down, finalised only when up, meshes loaded only while it is up. -/
def Legal : Bool → List Ev → Prop
  | _, [] => True
  | up, .init :: t => up = false ∧ Legal true t
  | up, .extInit :: t => up = false ∧ Legal true t
  | up, .free :: t => up = true ∧ Legal false t
  | up, .extFree :: t => up = true ∧ Legal false t
  | up, .load :: t => up = true ∧ Legal up t
  | up, .del :: t => Legal up t

/-- Is the library up after `t`? -/
def upAfter : Bool → List Ev → Bool
  | up, [] => up
  | _, .init :: t => upAfter true t
  | _, .extInit :: t => upAfter true t
  | _, .free :: t => upAfter false t
  | _, .extFree :: t => upAfter false t
  | up, .load :: t => upAfter up t
  | up, .del :: t => upAfter up t

/-- MISO's own calls only. -/
def Own : Op → Prop
  | .extInit => False
  | .extFree => False
  | _ => True

/-! ## Lemmas -/

theorem legal_append (up : Bool) (t u : List Ev) : Legal up (t ++ u) ↔ Legal up t ∧ Legal (upAfter up t) u := by
  induction t generalizing up with
  | nil => simp [Legal, upAfter]
  | cons e t ih => cases e <;> simp [Legal, upAfter, ih, and_assoc]

theorem upAfter_append (up : Bool) (t u : List Ev) : upAfter up (t ++ u) = upAfter (upAfter up t) u := by
  induction t generalizing up with
  | nil => simp [upAfter]
  | cons e t ih => cases e <;> simp [upAfter, ih]

theorem put_length (os : List (ℕ × Bool)) (i : ℕ) (b : Bool) : (put os i b).length = os.length := by simp [put]

theorem put_keys (os : List (ℕ × Bool)) (i : ℕ) (b : Bool) : (put os i b).map (·.1) = os.map (·.1) := by
  induction os with
  | nil => rfl
  | cons o os ih =>
    simp only [put, List.map_cons] at ih ⊢
    rw [ih]
    by_cases h : o.1 = i <;> simp [h]

theorem look_mem {os : List (ℕ × Bool)} {i : ℕ} {b : Bool} (h : look os i = some b) : i ∈ os.map (·.1) := by
  simp only [look, Option.map_eq_some_iff] at h
  obtain ⟨o, ho, -⟩ := h
  have h1 := List.mem_of_find?_eq_some ho
  have h2 := List.find?_some ho
  exact List.mem_map.2 ⟨o, h1, by simpa using h2⟩

theorem filter_len {os : List (ℕ × Bool)} (hnd : (os.map (·.1)).Nodup) {i : ℕ} (hi : i ∈ os.map (·.1)) :
    (os.filter (fun o => !(o.1 == i))).length = os.length - 1 := by
  induction os with
  | nil => simp at hi
  | cons o os ih =>
    rw [List.map_cons, List.nodup_cons] at hnd
    by_cases h : o.1 = i
    · have : os.filter (fun o => !(o.1 == i)) = os := by
        rw [List.filter_eq_self]
        intro q hq
        have : q.1 ≠ i := fun e => hnd.1 (by rw [h, ← e]; exact List.mem_map_of_mem hq)
        simp [this]
      rw [List.filter_cons_of_neg (by simp [h]), this]; simp
    · have hi' : i ∈ os.map (·.1) := by
        rcases List.mem_cons.1 (by simpa using hi : i ∈ o.1 :: os.map (·.1)) with e | e
        · exact absurd e.symm h
        · exact e
      rw [List.filter_cons_of_pos (by simp [h]), List.length_cons, ih hnd.2 hi', List.length_cons]
      have : 0 < os.length := by
        rcases os with _ | _
        · simp at hi'
        · simp
      omega

/-- The invariant while nobody else touches the library (`start`: library up before MISO's first call). -/
structure Inv (start : Bool) (s : St) : Prop where
  count : s.count = s.objs.length
  nodup : (s.objs.map (·.1)).Nodup
  fresh : ∀ i ∈ s.objs.map (·.1), i < s.next
  legal : Legal start s.trace
  lib : s.lib = upAfter start s.trace
  up : if start then s.lib = true ∧ (s.objs ≠ [] → s.prev = true) ∧ (s.trace.filter (fun e => e = .init ∨ e = .free)) = []
       else s.prev = false ∧ (s.lib = true ↔ s.objs ≠ [])

theorem inv_step (start : Bool) (s s' : St) (o : Op) (ho : Own o) (hs : step s o = some s') (h : Inv start s) : Inv start s' := by
  obtain ⟨hc, hnd, hf, hl, hlib, hup⟩ := h
  cases o with
  | ctor =>
    simp only [step, Option.some.injEq] at hs
    subst hs
    cases start
    · simp only [Bool.false_eq_true, if_false] at hup
      obtain ⟨hp, hu⟩ := hup
      by_cases he : s.objs = []
      · have hlf : s.lib = false := by
          cases hx : s.lib
          · rfl
          · exact absurd he (hu.1 hx)
        have hc0 : s.count = 0 := by rw [hc, he]; rfl
        refine ⟨?_, ?_, ?_, ?_, ?_, ?_⟩
        · simp [ctor, hc]
        · simp [ctor, he]
        · intro i hi; simp [ctor, he] at hi ⊢; omega
        · simp [ctor, hp, hc0, hlf, legal_append, hl, ← hlib, Legal]
        · simp [ctor, hp, hc0, hlf, upAfter_append, ← hlib, upAfter]
        · simp [ctor, hp, hc0, hlf]
      · have hlt : s.lib = true := hu.2 he
        have hc0 : s.count ≠ 0 := by rw [hc]; simpa using he
        refine ⟨?_, ?_, ?_, ?_, ?_, ?_⟩
        · simp [ctor, hc]
        · simp only [ctor, List.map_cons, List.nodup_cons]
          exact ⟨fun hm => by have := hf _ hm; omega, hnd⟩
        · intro i hi
          simp only [ctor, List.map_cons, List.mem_cons] at hi ⊢
          rcases hi with rfl | hi
          · omega
          · have := hf i hi; omega
        · simpa [ctor, hp, hc0, hlt] using hl
        · simp [ctor, hp, hc0, hlt, ← hlib]
        · simp [ctor, hp, hc0, hlt]
    · simp only [if_true] at hup
      obtain ⟨hu, hp, hfil⟩ := hup
      have hpv : (if (s.lib && s.count == 0) = true then true else s.prev) = true := by
        by_cases he : s.objs = []
        · have hc0 : s.count = 0 := by rw [hc, he]; rfl
          simp [hu, hc0]
        · simp [hp he]
      refine ⟨?_, ?_, ?_, ?_, ?_, ?_⟩
      · simp [ctor, hc]
      · simp only [ctor, List.map_cons, List.nodup_cons]
        exact ⟨fun hm => by have := hf _ hm; omega, hnd⟩
      · intro i hi
        simp only [ctor, List.map_cons, List.mem_cons] at hi ⊢
        rcases hi with rfl | hi
        · omega
        · have := hf i hi; omega
      · simp only [ctor, hpv]; simpa using hl
      · simp only [ctor, hpv]; simpa [hu] using hlib
      · simp only [ctor, hpv]; simpa [hu] using hfil
  | moveCtor i =>
    simp only [step, moveCtor] at hs
    cases hb : look s.objs i with
    | none => simp [hb] at hs
    | some b =>
      simp only [hb, Option.some.injEq] at hs
      subst hs
      have hi := look_mem hb
      have hne : s.objs ≠ [] := by intro e; rw [e] at hi; simp at hi
      refine ⟨?_, ?_, ?_, hl, hlib, ?_⟩
      · simp [hc, put_length]
      · simp only [List.map_cons, List.nodup_cons, put_keys]
        exact ⟨fun hm => by have := hf _ hm; omega, hnd⟩
      · intro k hk
        simp only [List.map_cons, List.mem_cons, put_keys] at hk ⊢
        rcases hk with rfl | hk
        · omega
        · have := hf k hk; omega
      · cases start
        · simp only [Bool.false_eq_true, if_false] at hup ⊢
          refine ⟨hup.1, ?_⟩
          simp [hup.2.2 hne]
        · simp only [if_true] at hup ⊢
          exact ⟨hup.1, fun _ => hup.2.1 hne, hup.2.2⟩
  | moveAssign i j =>
    simp only [step, moveAssign] at hs
    cases hb : look s.objs i with
    | none => simp [hb] at hs
    | some bi =>
      cases hb2 : look s.objs j with
      | none => simp [hb, hb2] at hs
      | some bj =>
        simp only [hb, hb2] at hs
        by_cases hij : i = j
        · simp only [hij, if_true, Option.some.injEq] at hs
          subst hs
          exact ⟨hc, hnd, hf, hl, hlib, hup⟩
        · simp only [hij, if_false, Option.some.injEq] at hs
          subst hs
          have hi := look_mem hb
          have hne : s.objs ≠ [] := by intro e; rw [e] at hi; simp at hi
          have hne' : put (put s.objs i bj) j false ≠ [] := by
            intro e
            have h1 := congrArg List.length e
            rw [put_length, put_length] at h1
            exact hne (List.length_eq_zero_iff.1 h1)
          refine ⟨?_, ?_, ?_, ?_, ?_, ?_⟩
          · simp [hc, put_length]
          · simpa [put_keys] using hnd
          · intro k hk
            rw [put_keys, put_keys] at hk
            exact hf k hk
          · rw [legal_append]; refine ⟨hl, ?_⟩; cases bi <;> simp [Legal]
          · rw [upAfter_append, ← hlib]; cases bi <;> simp [upAfter]
          · cases start
            · simp only [Bool.false_eq_true, if_false] at hup ⊢
              exact ⟨hup.1, by simp [hup.2.2 hne, hne']⟩
            · simp only [if_true] at hup ⊢
              refine ⟨hup.1, fun _ => hup.2.1 hne, ?_⟩
              rw [List.filter_append, hup.2.2]
              cases bi <;> simp
  | dtor i =>
    simp only [step, dtor] at hs
    cases hb : look s.objs i with
    | none => simp [hb] at hs
    | some b =>
      simp only [hb, Option.some.injEq] at hs
      subst hs
      have hi := look_mem hb
      have hne : s.objs ≠ [] := by intro e; rw [e] at hi; simp at hi
      have hlen := filter_len hnd hi
      have hnd' : ((s.objs.filter (fun o => !(o.1 == i))).map (·.1)).Nodup := List.Nodup.sublist (List.Sublist.map _ List.filter_sublist) hnd
      have hf' : ∀ k ∈ (s.objs.filter (fun o => !(o.1 == i))).map (·.1), k < s.next :=
        fun k hk => hf k ((List.Sublist.map (·.1) (List.filter_sublist (p := fun o : ℕ × Bool => !(o.1 == i)))).subset hk)
      cases start
      · simp only [Bool.false_eq_true, if_false] at hup
        have hlt : s.lib = true := hup.2.2 hne
        have hut : upAfter false s.trace = true := by rw [← hlib]; exact hlt
        by_cases hz : s.count - 1 = 0
        · refine ⟨by simp [hlen, hc], hnd', hf', ?_, ?_, ?_⟩
          · simp only [hup.1, hz, legal_append, hl]
            cases b <;> simp [Legal, hut, upAfter]
          · simp only [hup.1, hz, upAfter_append]
            cases b <;> simp [upAfter]
          · simp only [Bool.false_eq_true, if_false, hup.1, hz]
            have : s.objs.filter (fun o => !(o.1 == i)) = [] := List.length_eq_zero_iff.1 (by rw [hlen, ← hc]; exact hz)
            simp [this]
        · have hz' : (s.count - 1 == 0) = false := by simpa using hz
          refine ⟨by simp [hlen, hc], hnd', hf', ?_, ?_, ?_⟩
          · simp only [hup.1, hz', legal_append, hl]
            cases b <;> simp [Legal, upAfter]
          · simp only [hup.1, hz', upAfter_append]
            cases b <;> simp [upAfter, hlib]
          · simp only [Bool.false_eq_true, if_false, hup.1, hz']
            refine ⟨trivial, ?_⟩
            have : s.objs.filter (fun o => !(o.1 == i)) ≠ [] := by
              intro e; rw [e] at hlen; simp at hlen; omega
            simp [hlt, this]
      · simp only [if_true] at hup
        have hp := hup.2.1 hne
        refine ⟨by simp [hlen, hc], hnd', hf', ?_, ?_, ?_⟩
        · simp only [hp, legal_append, hl]
          cases b <;> simp [Legal, upAfter]
        · simp only [hp, upAfter_append]
          cases b <;> simp [upAfter, hlib]
        · simp only [if_true]
          refine ⟨by simp [hp, hup.1], fun _ => hp, ?_⟩
          simp only [hp, List.filter_append, hup.2.2]
          cases b <;> simp
  | load i =>
    simp only [step, load] at hs
    cases hb : look s.objs i with
    | none => simp [hb] at hs
    | some b =>
      simp only [hb, Option.some.injEq] at hs
      subst hs
      have hi := look_mem hb
      have hne : s.objs ≠ [] := by intro e; rw [e] at hi; simp at hi
      have hne' : put s.objs i true ≠ [] := by
        intro e
        have h1 := congrArg List.length e
        rw [put_length] at h1
        exact hne (List.length_eq_zero_iff.1 h1)
      have hlt : s.lib = true := by
        cases start
        · simp only [Bool.false_eq_true, if_false] at hup; exact hup.2.2 hne
        · simp only [if_true] at hup; exact hup.1
      have hut : upAfter start s.trace = true := by rw [← hlib]; exact hlt
      refine ⟨by simp [hc, put_length], by simpa [put_keys] using hnd, fun k hk => hf k (by rwa [put_keys] at hk), ?_, ?_, ?_⟩
      · simp only [legal_append, hl, hut]
        cases b <;> simp [Legal, hut, upAfter]
      · simp only [upAfter_append, ← hlib]
        cases b <;> simp [upAfter]
      · cases start
        · simp only [Bool.false_eq_true, if_false] at hup ⊢
          exact ⟨hup.1, by simp [hlt, hne']⟩
        · simp only [if_true] at hup ⊢
          refine ⟨hup.1, fun _ => hup.2.1 hne, ?_⟩
          rw [List.filter_append, List.filter_append, hup.2.2]
          cases b <;> simp
  | extInit => exact absurd ho (by simp [Own])
  | extFree => exact absurd ho (by simp [Own])

theorem inv_run (start : Bool) (os : List Op) (hown : ∀ o ∈ os, Own o) : ∀ s s', run s os = some s' → Inv start s → Inv start s' := by
  induction os with
  | nil => intro s s' hr h; simp only [run, Option.some.injEq] at hr; exact hr ▸ h
  | cons o os ih =>
    intro s s' hr h
    simp only [run] at hr
    cases hst : step s o with
    | none => simp [hst] at hr
    | some s1 =>
      simp only [hst] at hr
      exact ih (fun o' ho' => hown o' (List.mem_cons_of_mem _ ho')) s1 s' hr (inv_step start s s1 o (hown o (by simp)) hst h)

/-! ## C48 -/

/-- C48.  If nobody else uses the library, then for every history of constructions, moves, loads and destructions of mesh objects: the library is initialised only when down and
finalised only when up, every mesh is loaded while it is up, and at the end it is up exactly when some object is alive.  The full property also demands this when other users of the library come and go and that meshes
do not outlive the library: see the `_false_` theorems. -/
theorem C48_legal_trace_partial (os : List Op) (hown : ∀ o ∈ os, Own o) (s : St) (hr : run init0 os = some s) :
    Legal false s.trace ∧ (upAfter false s.trace = true ↔ s.objs ≠ []) := by
  have h := inv_run false os hown init0 s hr ⟨rfl, by simp [init0], by simp [init0], by simp [Legal, init0], rfl, by simp [init0]⟩
  refine ⟨h.legal, ?_⟩
  rw [← h.lib]
  simpa using h.up.2

/-- C48.  If another user brought the library up first and keeps it up, MISO never initialises or finalises it. -/
theorem C48_leaves_foreign_library_alone_partial (os : List Op) (hown : ∀ o ∈ os, Own o) (s : St) (hr : run { init0 with lib := true } os = some s) :
    (.init ∉ s.trace) ∧ (.free ∉ s.trace) ∧ Legal true s.trace := by
  have h := inv_run true os hown { init0 with lib := true } s hr ⟨rfl, by simp [init0], by simp [init0], by simp [Legal, init0], rfl, by simp [init0]⟩
  have hf : s.trace.filter (fun e => e = .init ∨ e = .free) = [] := h.up.2.2
  rw [List.filter_eq_nil_iff] at hf
  exact ⟨fun hm => by simpa using hf _ hm, fun hm => by simpa using hf _ hm, h.legal⟩

/-- Non-vacuity: two objects, a load, a move, both destroyed, then a third: two full up/down cycles. -/
example : (run init0 [.ctor, .load 0, .moveCtor 0, .dtor 0, .dtor 1, .ctor, .load 2]).map (·.trace) = some [.init, .load, .free, .del, .init, .load] := by decide

/-- The property is false when another user brings the library up and later takes it down: the flag `PCU_previously_initialized` is never cleared, so MISO does not initialise the library
for the next mesh and loads it with the library down. -/
theorem C48_false_sticky_flag : ∃ os s, run init0 os = some s ∧ ¬ Legal false s.trace ∧ Legal false (s.trace.take 2) ∧ s.trace[2]? = some Ev.load :=
  ⟨[.extInit, .ctor, .dtor 0, .extFree, .ctor, .load 1], _, rfl, by simp [ctor, dtor, load, look, put, init0, Legal], by simp [ctor, dtor, load, look, put, init0, Legal],
    by decide⟩

/-- Nor does the library outlive the meshes: the last object's PUMI mesh is destroyed after `PCU_Comm_Free`. -/
theorem C48_false_mesh_outlives_library : ∃ os s, (∀ o ∈ os, Own o) ∧ run init0 os = some s ∧ s.trace = [.init, .load, .free, .del] :=
  ⟨[.ctor, .load 0, .dtor 0], _, by simp [Own], rfl, by decide⟩

end Verif.Pcu
