import Verif.SolverSetup
import Mathlib.Tactic.NormNum
import Mathlib.Tactic.SplitIfs

/-! # Building solvers from options: property theorems (C194–C196) -/

set_option linter.unusedSimpArgs false

namespace Verif.SolverSetup

/-- The supported linear solvers: method and whether the Hypre implementation is used. -/
def meaning : String → Option (Method × Bool)
  | "hypregmres" => some (.gmres, true)
  | "gmres" => some (.gmres, false)
  | "hyprefgmres" => some (.fgmres, true)
  | "fgmres" => some (.fgmres, false)
  | "hyprepcg" => some (.pcg, true)
  | "pcg" => some (.pcg, false)
  | "minres" => some (.minres, false)
  | _ => none

/-- Names of the supported solvers. -/
def names : List String := ["hypregmres", "gmres", "hyprefgmres", "fgmres", "hyprepcg", "pcg", "minres"]

theorem names_of_meaning (t : String) (x : Method × Bool) (h : meaning t = some x) : t ∈ names := by
  unfold meaning at h
  split at h <;> first | (simp [names]; done) | exact absurd h (by simp)

/-- **C194** A supported solver type gives a solver of that method with the relative tolerance and iteration limit of the options and the given
preconditioner attached; it fails only when a Hypre solver is combined with a preconditioner that is not from Hypre. -/
theorem C194_configured (o : LinOpts) (prec : Option Prec) (m : Method) (hy : Bool) (hm : meaning o.type = some (m, hy)) :
    (hy = true ∧ (∃ p, prec = some p ∧ p.isHypre = false) → constructLin o prec = .badCast) ∧
    (¬ (hy = true ∧ ∃ p, prec = some p ∧ p.isHypre = false) → ∃ s, constructLin o prec = .ok s ∧ s.method = m ∧ s.hypre = hy ∧
      s.relTol = o.reltol ∧ s.maxIter = o.maxiter ∧ s.prec = prec) := by
  obtain ⟨t, r, a, mi, pl, kd⟩ := o
  have hn := names_of_meaning t _ hm
  simp only [names, List.mem_cons, List.not_mem_nil, or_false] at hn
  rcases hn with h | h | h | h | h | h | h <;> subst h <;> simp only [meaning, Option.some.injEq, Prod.mk.injEq] at hm <;>
    obtain ⟨rfl, rfl⟩ := hm <;> refine ⟨?_, ?_⟩ <;> rcases prec with _ | p <;>
    simp [constructLin, attach] <;> (intro h; simp [h])

/-- **C194** The absolute tolerance is honoured by every solver except "hyprefgmres"; the restart length by the GMRES variants; the print level by all
but "fgmres", where it only switches printing on. -/
theorem C194_rest (o : LinOpts) (prec : Option Prec) (s : Lin) (h : constructLin o prec = .ok s) :
    (o.type ≠ "hyprefgmres" → s.absTol = some (o.abstol.getD 0)) ∧
    (s.method = .gmres ∨ s.method = .fgmres → ∀ k, o.kdim = some k → k ≠ -1 → s.kdim = some k) ∧
    (o.kdim = none → s.kdim = none) ∧
    (o.type ≠ "fgmres" → s.print = some o.printlevel) := by
  obtain ⟨t, r, a, mi, pl, kd⟩ := o
  simp only [constructLin] at h
  have key : ∀ s0 : Lin, attach s0 prec = .ok s → s = { s0 with prec := s.prec } ∨ s = s0 := by
    intro s0 h0
    unfold attach at h0
    rcases prec with _ | p
    · simp only [Out.ok.injEq] at h0; exact .inr h0.symm
    · simp only at h0
      by_cases hc : s0.hypre = true ∧ p.isHypre = false
      · rw [if_pos hc] at h0; exact absurd h0 (by simp)
      · rw [if_neg hc, Out.ok.injEq] at h0; exact .inl (by rw [← h0])
  have hk : ∀ k, kd = some k → k ≠ -1 → kdimSet ⟨t, r, a, mi, pl, kd⟩ = some k := by
    rintro k rfl hk; simp [kdimSet, hk]
  have hk0 : kd = none → kdimSet ⟨t, r, a, mi, pl, kd⟩ = none := by rintro rfl; simp [kdimSet]
  split_ifs at h with h1 h2 h3 h4 h5 h6 h7 h8
  all_goals
    have e := key _ h
    refine ⟨fun ht => ?_, fun hm => ?_, fun hkd => ?_, fun ht => ?_⟩
    all_goals rcases e with e | e <;> rw [e] <;> first | rfl | exact hk | exact hk0 hkd | exact absurd h3 ht | exact absurd h4 ht | skip
    all_goals rw [e] at hm; simp at hm

/-- **C194** Every other type is refused. -/
theorem C194_unsupported (o : LinOpts) (prec : Option Prec) (h : o.type ∉ names) : constructLin o prec = .miso := by
  simp only [names, List.mem_cons, List.not_mem_nil, or_false, not_or] at h
  simp [constructLin, h.1, h.2.1, h.2.2.1, h.2.2.2.1, h.2.2.2.2.1, h.2.2.2.2.2.1, h.2.2.2.2.2.2]

/-- **C194** fails for the default solver: "hyprefgmres" ignores the absolute tolerance, whatever the options say. -/
theorem C194_abstol_false (o : LinOpts) (ht : o.type = "hyprefgmres") (prec : Option Prec) (s : Lin) (h : constructLin o prec = .ok s) :
    s.absTol = none := by
  obtain ⟨t, r, a, mi, pl, kd⟩ := o
  subst ht
  rcases prec with _ | p
  · simp [constructLin, attach] at h
    rw [← h]
  · simp [constructLin, attach] at h
    split_ifs at h with hc
    simp at h
    rw [← h]

example : constructLin defaults.lin (some (.amg 0)) = .ok ⟨.fgmres, true, 1 / 10 ^ 12, none, 100, some 1, some 100, some (.amg 0)⟩ := by
  decide +kernel

example : constructLin ⟨"hypregmres", 1 / 100, none, 10, 0, none⟩ (some (.blockIlu 4)) = .badCast ∧
    (constructLin ⟨"gmres", 1 / 100, none, 10, 0, none⟩ (some (.blockIlu 4))) =
      .ok ⟨.gmres, false, 1 / 100, some 0, 10, some 0, none, some (.blockIlu 4)⟩ := by
  decide +kernel

/-! ### C195 Preconditioners -/

/-- **C195** The flow residual builds the preconditioner the options name, with the options' parameters, and refuses every other name. -/
theorem C195_flow (vdim : ℤ) (o : PrecOpts) :
    (o.type = "hypreilu" → flowPrec vdim o = .ok (.ilu o.iluType o.levFill o.iluReorder o.printlevel)) ∧
    (o.type = "hypreeuclid" → flowPrec vdim o = .ok .euclid) ∧
    (o.type = "hypreams" → flowPrec vdim o = .ok (.ams o.printlevel)) ∧
    (o.type = "hypreboomeramg" → flowPrec vdim o = .ok (.amg o.printlevel)) ∧
    (o.type = "blockilu" → flowPrec vdim o = .ok (.blockIlu vdim)) ∧
    (o.type ∉ ["hypreilu", "hypreeuclid", "hypreams", "hypreboomeramg", "blockilu"] → flowPrec vdim o = .miso) := by
  refine ⟨fun h => ?_, fun h => ?_, fun h => ?_, fun h => ?_, fun h => ?_, fun h => ?_⟩
  · simp [flowPrec, h]
  · simp [flowPrec, h]
  · simp [flowPrec, h]
  · simp [flowPrec, h]
  · simp [flowPrec, h]
  · simp only [List.mem_cons, List.not_mem_nil, or_false, not_or] at h
    simp [flowPrec, h.1, h.2.1, h.2.2.1, h.2.2.2.1, h.2.2.2.2]

/-- **C195** For magnetostatics and heat conduction only the multigrid names work. -/
theorem C195_multigrid_partial (o : PrecOpts) :
    (o.type = "hypreams" → magPrec o = some (.ams o.printlevel)) ∧
    (o.type = "hypreboomeramg" → magPrec o = some (.amg o.printlevel) ∧ thermalPrec o = some (.amg o.printlevel)) := by
  refine ⟨fun h => ?_, fun h => ?_⟩ <;> simp [magPrec, thermalPrec, h]

/-- **C195** fails for "hypreilu" (the default) and for unknown names: magnetostatics and heat conduction silently solve without a preconditioner. -/
theorem C195_no_preconditioner_false (o : PrecOpts) (h : o.type ≠ "hypreams") (h' : o.type ≠ "hypreboomeramg") :
    magPrec o = none ∧ thermalPrec o = none := by
  simp [magPrec, thermalPrec, h, h']

/-- **C195** fails for the mesh warper: it ignores the requested type. -/
theorem C195_warper_false (o : PrecOpts) : warperPrec o = some (.amg o.printlevel) := rfl

/-- **C195** fails for adjoint solves: "adj-prec" has no influence, the adjoint solver uses the preconditioner of the forward solve. -/
theorem C195_adjoint_false (o : Opts) (q : PrecOpts) (prec : Option Prec) (b b' : Built) (a : Lin) (hb : b.adj = none)
    (h : adjointSolver o prec b = .ok (b', a)) : adjointSolver { o with adjPrec := q } prec b = .ok (b', a) ∧ a.prec = prec := by
  refine ⟨h, ?_⟩
  unfold adjointSolver at h
  rw [hb] at h
  simp only at h
  cases hc : constructLin o.adj prec with
  | miso => rw [hc] at h; exact absurd h (by simp)
  | badCast => rw [hc] at h; exact absurd h (by simp)
  | ok s =>
    rw [hc] at h
    simp only [Out.ok.injEq, Prod.mk.injEq] at h
    rw [← h.2]
    by_cases hn : o.adj.type ∈ names
    · have hm : ∃ m hy, meaning o.adj.type = some (m, hy) := by
        simp only [names, List.mem_cons, List.not_mem_nil, or_false] at hn
        rcases hn with e | e | e | e | e | e | e <;> rw [e] <;> exact ⟨_, _, rfl⟩
      obtain ⟨m, hy, hm⟩ := hm
      have := C194_configured o.adj prec m hy hm
      by_cases hx : hy = true ∧ ∃ p, prec = some p ∧ p.isHypre = false
      · rw [this.1 hx] at hc; exact absurd hc (by simp)
      · obtain ⟨s', hs', -, -, -, -, hp⟩ := this.2 hx
        rw [hs', Out.ok.injEq] at hc
        rw [← hc]; exact hp
    · rw [C194_unsupported o.adj prec hn] at hc; exact absurd hc (by simp)

/-- **C195** The default magnetostatic or thermal solver has no preconditioner; the default flow solver has the ILU it asks for. -/
example : magPrec defaults.linPrec = none ∧ thermalPrec defaults.linPrec = none ∧ flowPrec 4 defaults.linPrec = .ok (.ilu 0 1 1 0) := by
  decide +kernel

/-! ### C196 Nonlinear solvers and sessions -/

/-- **C196** The nonlinear solver has the kind, tolerances and iteration limit of the options and works with the given linear solver; unknown kinds are
refused. -/
theorem C196_configured (o : NonlinOpts) (l : Lin) :
    (∀ k, (o.type = "newton" ∧ k = .newton ∨ o.type = "inexactnewton" ∧ k = .inexact ∨ o.type = "relaxednewton" ∧ k = .relaxed) →
      ∃ s, constructNonlin o l = .ok (some s) ∧ s.kind = k ∧ s.relTol = o.reltol ∧ s.absTol = o.abstol ∧ s.maxIter = o.maxiter ∧ s.lin = l) ∧
    (o.type ∉ ["none", "newton", "inexactnewton", "relaxednewton"] → constructNonlin o l = .miso) := by
  refine ⟨?_, fun h => ?_⟩
  · rintro k (⟨h, rfl⟩ | ⟨h, rfl⟩ | ⟨h, rfl⟩) <;> simp [constructNonlin, h]
  · simp only [List.mem_cons, List.not_mem_nil, or_false, not_or] at h
    simp [constructNonlin, h.1, h.2.1, h.2.2.1, h.2.2.2]

/-- **C196** fails for "none", which is documented to skip the nonlinear solver: the null pointer is used while the solver is being built. -/
theorem C196_none_false (o : Opts) (prec : Option Prec) (h : o.nonlin.type = "none") (l : Lin) (hl : constructLin o.lin prec = .ok l) :
    build o prec = .crash := by
  simp [build, hl, constructNonlin, h]

/-- **C196** fails for "abort": the option has no effect. -/
theorem C196_abort_false (o : NonlinOpts) (b : Bool) (l : Lin) : constructNonlin { o with abort := b } l = constructNonlin o l := rfl

/-- **C196** The adjoint solver is built once, from the options of the first adjoint solve; every later adjoint solve uses the same one. -/
theorem C196_adjoint_once (o o' : Opts) (prec prec' : Option Prec) (b b' : Built) (a : Lin) (h : adjointSolver o prec b = .ok (b', a)) :
    adjointSolver o' prec' b' = .ok (b', a) := by
  unfold adjointSolver at h
  cases hb : b.adj with
  | some x =>
    rw [hb] at h
    simp only [Out.ok.injEq, Prod.mk.injEq] at h
    obtain ⟨rfl, rfl⟩ := h
    simp [adjointSolver, hb]
  | none =>
    rw [hb] at h
    simp only at h
    cases hc : constructLin o.adj prec with
    | miso => rw [hc] at h; exact absurd h (by simp)
    | badCast => rw [hc] at h; exact absurd h (by simp)
    | ok s =>
      rw [hc] at h
      simp only [Out.ok.injEq, Prod.mk.injEq] at h
      obtain ⟨rfl, rfl⟩ := h
      simp [adjointSolver]

/-- The default options build a solver and an adjoint solver. -/
example : ∃ b, build defaults (some (.ilu 0 1 1 0)) = .ok b ∧ b.nonlin.kind = .newton ∧ b.adj = none ∧
    ∃ b' a, adjointSolver defaults (some (.ilu 0 1 1 0)) b = .ok (b', a) ∧ a.relTol = 1 / 10 ^ 8 :=
  ⟨_, rfl, rfl, rfl, _, _, rfl, rfl⟩

end Verif.SolverSetup
