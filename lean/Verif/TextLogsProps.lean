import Verif.TextLogs
import Verif.TimeLoopProps

/-! # The text logs of the flow solvers over histories of solves (C211) -/

set_option linter.unusedSectionVars false

namespace Verif.TextLogs

variable {R : Type}

/-! ### One stream -/

private theorem rows_good (rows : List R) : ∀ (l : List R),
    rows.foldl Log.row ⟨some l, ⟨true, true, false⟩⟩ = ⟨some (l ++ rows), ⟨true, true, false⟩⟩ := by
  induction rows with
  | nil => intro l; simp
  | cons r rows ih =>
    intro l
    have : Log.row (⟨some l, ⟨true, true, false⟩⟩ : Log R) r = ⟨some (l ++ [r]), ⟨true, true, false⟩⟩ := rfl
    rw [List.foldl_cons, this, ih]; simp

/-- Rows written to a stream that is not the named file never reach that file. -/
private theorem rows_lost (rows : List R) : ∀ (f : Option (List R)) (s : Stream),
    (s.isOpen = false ∨ s.bound = false ∨ s.fail = true) →
    (rows.foldl Log.row ⟨f, s⟩).file = f ∧
      (rows.foldl Log.row ⟨f, s⟩).s.isOpen = s.isOpen ∧ (rows.foldl Log.row ⟨f, s⟩).s.bound = s.bound ∧
      (s.fail = true → (rows.foldl Log.row ⟨f, s⟩).s.fail = true) := by
  induction rows with
  | nil => intro f s _; exact ⟨rfl, rfl, rfl, id⟩
  | cons r rows ih =>
    rintro f ⟨o, b, e⟩ h
    rw [List.foldl_cons]
    rcases o with _ | _ <;> rcases b with _ | _ <;> rcases e with _ | _ <;>
      first
        | (simp at h; done)
        | (obtain ⟨h1, h2, h3, h4⟩ := ih f ⟨false, false, true⟩ (by simp)
           exact ⟨h1, h2, h3, fun _ => h4 rfl⟩)
        | (obtain ⟨h1, h2, h3, h4⟩ := ih f ⟨false, true, true⟩ (by simp)
           exact ⟨h1, h2, h3, fun _ => h4 rfl⟩)
        | (obtain ⟨h1, h2, h3, h4⟩ := ih f ⟨true, false, true⟩ (by simp)
           exact ⟨h1, h2, h3, fun _ => h4 rfl⟩)
        | (obtain ⟨h1, h2, h3, h4⟩ := ih f ⟨true, true, true⟩ (by simp)
           exact ⟨h1, h2, h3, fun _ => h4 rfl⟩)
        | (obtain ⟨h1, h2, h3, h4⟩ := ih f ⟨true, false, false⟩ (by simp)
           exact ⟨h1, h2, h3, fun h => by simp at h⟩)

private theorem open_closed (l : Log R) (h : l.s.isOpen = false) :
    l.remove.open = ⟨some [], ⟨true, true, false⟩⟩ := by
  obtain ⟨f, ⟨o, b, e⟩⟩ := l
  simp only at h
  subst h; rfl

/-! ### Specification -/

/-- What the file holds after a call that wrote these rows: those, and the terminal one if it was reached. -/
def Run.content (r : Run R) : List R := r.rows ++ r.last.toList

/-- A history of solves on one solver. -/
def flowHistory (l : Log R) (h : List (Run R)) : Log R := h.foldl flowRun l

/-- A history of solves on one flow-control solver. -/
def ctlHistory (c : CtlLog R) (h : List (Run R)) : CtlLog R := h.foldl (ctlRun false) c

/-- The solver as constructed, next to whatever file an earlier process left. -/
def Log.new (old : Option (List R)) : Log R := ⟨old, Stream.fresh⟩

/-- The same for the flow-control solver. -/
def CtlLog.new (old : Option (List R)) : CtlLog R := ⟨old, none⟩

/-! ### entropy-log.txt -/

/-- A call on a closed stream: the file holds exactly what that call wrote, whatever was there before, and the stream
is closed iff the call ended normally. -/
theorem C211_entropy_log_run (l : Log R) (hl : l.s.isOpen = false) (r : Run R) :
    (flowRun l r).file = some r.content ∧ ((flowRun l r).s.isOpen = r.last.isNone) := by
  unfold flowRun
  rw [open_closed l hl]
  unfold Log.hooks
  rw [rows_good]
  obtain ⟨rows, last⟩ := r
  cases last with
  | none => exact ⟨by simp [Run.content], rfl⟩
  | some x => exact ⟨by simp [Run.content, Log.row, Log.close], by simp [Log.row, Log.close]⟩

private theorem completed_closed (h : List (Run R)) : ∀ (l : Log R), l.s.isOpen = false →
    (∀ r ∈ h, r.last.isSome) → (flowHistory l h).s.isOpen = false := by
  induction h with
  | nil => intro l hl _; exact hl
  | cons r h ih =>
    intro l hl hr
    refine ih (flowRun l r) ?_ fun x hx => hr x (by simp [hx])
    rw [(C211_entropy_log_run l hl r).2]
    have := hr r (by simp)
    rcases h : r.last with _ | _ <;> simp_all

/-- After any history of completed solves, one more (completed or cut short) leaves exactly its own rows. -/
theorem C211_entropy_log_history (old : Option (List R)) (h : List (Run R)) (hr : ∀ r ∈ h, r.last.isSome)
    (r : Run R) : (flowHistory (Log.new old) (h ++ [r])).file = some r.content := by
  unfold flowHistory
  rw [List.foldl_append]
  exact (C211_entropy_log_run _ (completed_closed h (Log.new old) rfl hr) r).1

/-- FALSE without "completed": after an aborted solve, the next one removes the file and cannot reopen the stream, so
there is no log at all; the one after works again. -/
theorem C211_entropy_log_after_abort_false (l : Log R) (hl : l.s.isOpen = false) (a b c : Run R)
    (ha : a.last = none) (hb : b.last.isSome) :
    (flowHistory l [a, b]).file = none ∧ (flowHistory l [a, b, c]).file = some c.content := by
  have h1 := C211_entropy_log_run l hl a
  obtain ⟨q, hq⟩ : ∃ q, q = flowRun l a := ⟨_, rfl⟩
  rw [← hq] at h1
  have ho : q.s.isOpen = true := by rw [h1.2, ha]; rfl
  have hop : q.remove.open = ⟨none, ⟨true, false, true⟩⟩ := by
    obtain ⟨f, ⟨o, b, e⟩⟩ := q
    simp only at ho
    subst ho; rfl
  have key : (flowRun q b).file = none ∧ (flowRun q b).s.isOpen = false := by
    unfold flowRun
    rw [hop]
    unfold Log.hooks
    obtain ⟨e1, e2, e3, e4⟩ := rows_lost b.rows none ⟨true, false, true⟩ (by simp)
    obtain ⟨rows, last⟩ := b
    cases last with
    | none => simp at hb
    | some x =>
      simp only at e1 e2 e3 e4 ⊢
      generalize rows.foldl Log.row (⟨none, ⟨true, false, true⟩⟩ : Log R) = w at *
      obtain ⟨f, ⟨o, bd, e⟩⟩ := w
      simp only at e1 e2 e3 e4
      subst e1 e2 e3
      rw [e4 trivial]
      exact ⟨rfl, rfl⟩
  refine ⟨by simp only [flowHistory, List.foldl_cons, List.foldl_nil]; rw [← hq]; exact key.1, ?_⟩
  simp only [flowHistory, List.foldl_cons, List.foldl_nil]
  rw [← hq]
  exact (C211_entropy_log_run _ key.2 c).1

/-- Witness: a solve that aborts after two steps, then one that completes. -/
example : (flowHistory (Log.new (some [9])) [⟨[1, 2], none⟩]).file = some [1, 2] ∧
    (flowHistory (Log.new (some [9])) [⟨[1, 2], none⟩, ⟨[3], some 4⟩]).file = none ∧
    (flowHistory (Log.new (some [9])) [⟨[1, 2], none⟩, ⟨[3], some 4⟩, ⟨[5], some 6⟩]).file = some [5, 6] ∧
    (flowHistory (Log.new (some [9])) [⟨[1, 2], some 3⟩, ⟨[4], some 5⟩]).file = some [4, 5] :=
  ⟨rfl, rfl, rfl, rfl⟩

/-! ### The output files of the flow-control solver -/

/-- The first solve of a flow-control solver logs correctly, also when it is cut short. -/
theorem C211_control_first_partial (old : Option (List R)) (r : Run R) :
    (ctlRun false (CtlLog.new old) r).file = some r.content := by
  show ((Log.mk (some []) ⟨true, true, false⟩).hooks r).file = _
  unfold Log.hooks
  rw [rows_good]
  obtain ⟨rows, last⟩ := r
  cases last with
  | none => simp [Run.content]
  | some x => simp [Run.content, Log.row, Log.close]

private theorem ctl_entry (c : CtlLog R) (r : Run R) : (ctlRun false c r).entry.isSome := rfl

private theorem ctl_again (c : CtlLog R) (hc : c.entry.isSome) (r : Run R) :
    (ctlRun false c r).file = some [] := by
  obtain ⟨f, entry⟩ := c
  cases entry with
  | none => simp at hc
  | some s =>
    show ((Log.mk (some []) { s with bound := false }).hooks r).file = _
    unfold Log.hooks
    obtain ⟨e1, e2, e3, e4⟩ := rows_lost r.rows (some []) { s with bound := false } (by simp)
    obtain ⟨rows, last⟩ := r
    cases last with
    | none => exact e1
    | some x =>
      simp only at e1 e2 e3 e4 ⊢
      generalize rows.foldl Log.row (⟨some [], { s with bound := false }⟩ : Log R) = w at *
      obtain ⟨f', ⟨o, bd, e⟩⟩ := w
      simp only at e1 e2 e3 e4
      subst e1 e3
      rcases o with _ | _ <;> rcases e with _ | _ <;> rfl

/-- FALSE for every later solve: it wipes the log of the earlier one and leaves an empty file. -/
theorem C211_control_later_false (c : CtlLog R) (h : List (Run R)) (hne : h ≠ []) (r : Run R) :
    (ctlHistory c (h ++ [r])).file = some [] := by
  unfold ctlHistory
  rw [List.foldl_append]
  refine ctl_again _ ?_ r
  obtain ⟨h', x, rfl⟩ := List.eq_nil_or_concat h |>.resolve_left hne
  rw [List.concat_eq_append, List.foldl_append]
  exact ctl_entry _ x

/-- A steady problem is refused before any file is touched. -/
theorem C211_control_steady (c : CtlLog R) (r : Run R) : ctlRun true c r = c := rfl

/-- Witness: the second solve writes nothing and the log of the first is gone. -/
example : (ctlHistory (CtlLog.new none) [⟨[1, 2], some 3⟩]).file = some [1, 2, 3] ∧
    (ctlHistory (CtlLog.new none) [⟨[1, 2], some 3⟩, ⟨[4, 5], some 6⟩]).file = some [] := ⟨rfl, rfl⟩

/-! ### The rows -/

variable {K S V : Type} [Field K] [LinearOrder K] [IsStrictOrderedRing K]

private theorem loop_step (v : TimeLoop.Solver K S) (left ti : ℕ) (s : S) (t dt0 : K) :
    TimeLoop.loop v (left + 1) ti s t dt0 =
      match v.step s t (v.calcStepSize ti t v.tFinal dt0 s) with
      | (s', t', dt') =>
        if v.iterationExit ti t' v.tFinal dt' s' then
          ⟨s', t', ti, true, [⟨ti, t, v.calcStepSize ti t v.tFinal dt0 s, s⟩]⟩
        else
          { TimeLoop.loop v left (ti + 1) s' t' dt' with
            iters := ⟨ti, t, v.calcStepSize ti t v.tFinal dt0 s, s⟩ ::
              (TimeLoop.loop v left (ti + 1) s' t' dt').iters } := rfl

/-- The sequence of states a run goes through: consecutive ones are related by one step of the method. -/
def Steps (v : TimeLoop.Solver K S) : List (K × S) → Prop
  | [] => True
  | [_] => True
  | a :: b :: l => (∃ dt dt', v.step a.2 a.1 dt = (b.2, b.1, dt')) ∧ Steps v (b :: l)

/-- The states of the rows: those of the iterations and the final one. -/
def visited (v : TimeLoop.Solver K S) (s0 : S) : List (K × S) :=
  (TimeLoop.solve v s0).iters.map (fun i => (i.t, i.state)) ++
    [((TimeLoop.solve v s0).t, (TimeLoop.solve v s0).state)]

private theorem loop_visited (v : TimeLoop.Solver K S) : ∀ (left ti : ℕ) (s : S) (t dt0 : K),
    ∃ l, (TimeLoop.loop v left ti s t dt0).iters.map (fun i => (i.t, i.state)) ++
      [((TimeLoop.loop v left ti s t dt0).t, (TimeLoop.loop v left ti s t dt0).state)] = (t, s) :: l ∧
      Steps v ((t, s) :: l) := by
  intro left
  induction left with
  | zero => intro ti s t dt0; exact ⟨[], rfl, trivial⟩
  | succ n ih =>
    intro ti s t dt0
    rw [loop_step]
    obtain ⟨q, hq⟩ : ∃ q, q = v.step s t (v.calcStepSize ti t v.tFinal dt0 s) := ⟨_, rfl⟩
    rw [← hq]
    obtain ⟨s', t', dt'⟩ := q
    by_cases hx : v.iterationExit ti t' v.tFinal dt' s' = true
    · simp only [hx, if_true]
      exact ⟨[(t', s')], rfl, ⟨_, _, hq.symm⟩, trivial⟩
    · simp only [hx]
      obtain ⟨l, h1, h2⟩ := ih (ti + 1) s' t' dt'
      refine ⟨(t', s') :: l, ?_, ⟨_, _, hq.symm⟩, h2⟩
      rw [← h1]; rfl

/-- The log of a complete solve: one row per visited state in order, starting at the initial time and state, ending at
the state the solve returns, consecutive states one step of the method apart. -/
theorem C211_rows (v : TimeLoop.Solver K S) (value : S → V) (s0 : S) :
    (solveRun v value s0).content = (visited v s0).map (fun p => (p.1, value p.2)) ∧
      (visited v s0).head? = some (v.tInit, s0) ∧
      (visited v s0).getLast? = some ((TimeLoop.solve v s0).t, (TimeLoop.solve v s0).state) ∧
      Steps v (visited v s0) ∧ (visited v s0).length = (TimeLoop.solve v s0).iters.length + 1 := by
  obtain ⟨l, h1, h2⟩ := loop_visited v v.maxIter 0 s0 v.tInit 0
  refine ⟨by simp [solveRun, Run.content, visited], ?_, by simp [visited], ?_, by simp [visited]⟩
  · show (_ ++ _ : List (K × S)).head? = _
    unfold TimeLoop.solve
    rw [h1]; rfl
  · show Steps v (_ ++ _)
    unfold TimeLoop.solve
    rw [h1]; exact h2

/-- Times in the log strictly increase when the method strictly advances time. -/
theorem C211_times (v : TimeLoop.Solver K S) (value : S → V) (s0 : S)
    (hv : ∀ s t dt, t < (v.step s t dt).2.1) :
    ((solveRun v value s0).content.map Prod.fst).Pairwise (· < ·) := by
  rw [(C211_rows v value s0).1, List.map_map]
  have h := (C211_rows v value s0).2.2.2.1
  generalize visited v s0 = l at h
  have hch : ∀ l : List (K × S), Steps v l → (l.map Prod.fst).Pairwise (· < ·) := by
    intro l
    induction l with
    | nil => intro _; simp
    | cons a l ih =>
      intro h
      cases l with
      | nil => simp
      | cons b l =>
        obtain ⟨⟨dt, dt', e⟩, h2⟩ := h
        have hab : a.1 < b.1 := by have := hv a.2 a.1 dt; rw [e] at this; exact this
        have := ih h2
        rw [List.map_cons, List.pairwise_cons] at this ⊢
        refine ⟨?_, List.pairwise_cons.mpr this⟩
        intro x hx
        rw [List.map_cons, List.mem_cons] at hx
        rcases hx with rfl | hx
        · exact hab
        · exact hab.trans (this.1 x hx)
  exact hch l h

/-- A solve cut short before the hook of iteration `k`, after any completed solves: the file is the first `k` rows of
the log the complete solve would have written. -/
theorem C211_crash (old : Option (List (K × V))) (h : List (Run (K × V))) (hr : ∀ r ∈ h, r.last.isSome)
    (v : TimeLoop.Solver K S) (value : S → V) (s0 : S) (k : ℕ) (hk : k ≤ (TimeLoop.solve v s0).iters.length) :
    (flowHistory (Log.new old) (h ++ [cutRun v value s0 k])).file =
      some ((solveRun v value s0).content.take k) := by
  rw [C211_entropy_log_history old h hr]
  simp only [Run.content, cutRun, Option.toList_none, List.append_nil]
  rw [List.take_append_of_le_length (by simpa [solveRun] using hk)]

/-- Witness: three steps of size 1 from 0 to 3, logging twice the state. -/
def demo : TimeLoop.Solver ℚ ℚ := TimeLoop.defaultSolver 0 3 1 10 true fun s t dt => (s + 5, t + dt, dt)

example : (flowHistory (Log.new none) [solveRun demo (2 * ·) 1]).file = some [(0, 2), (1, 12), (2, 22), (3, 32)] ∧
    (flowHistory (Log.new none) [solveRun demo (2 * ·) 1, cutRun demo (2 * ·) 7 2]).file = some [(0, 14), (1, 24)] := by
  decide +kernel

/-! ### Values and names of the flow-control outputs -/

/-- Only the output called "entropy" depends on the control state. -/
theorem C211_control_value {C F : Type} (name : String) (whole : C × F → V) (flow : F → V) :
    (name = "entropy" → ∀ s, ctlValue name whole flow s = whole s) ∧
      (name ≠ "entropy" → ∀ c c' f, ctlValue name whole flow (c, f) = ctlValue name whole flow (c', f)) :=
  ⟨fun h s => by simp [ctlValue, h], fun h c c' f => by simp [ctlValue, h]⟩

/-- Different outputs of a run write different files. -/
theorem C211_control_files (a b : String) (n : ℕ) (h : ctlFile a n = ctlFile b n) : a = b := by
  unfold ctlFile at h
  have h' := congrArg String.toList h
  simp only [String.toList_append] at h'
  have := List.append_cancel_right (List.append_cancel_right (List.append_cancel_right h'))
  exact String.toList_inj.mp this

end Verif.TextLogs
