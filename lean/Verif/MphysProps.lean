import Mathlib.Data.List.Nodup
import Mathlib.Data.Rat.Defs
import Mathlib.Tactic.Tauto
import Verif.Mphys

/-! # Wiring of an MPhys scenario: property theorems (C231) -/

namespace Verif.Mphys

/-! ### Specification -/

/-- Physics the builder knows. -/
def Known (t : String) : Prop := t = "euler" ∨ t = "navierstokes" ∨ t = "magnetostatic" ∨ t = "thermal"

/-- The prefix of the physics' variables. -/
def short (t : String) : String := if t = "magnetostatic" then "em" else if t = "thermal" then "conduct" else "aero"

/-- Name of the volume mesh and of the state. -/
def vol (t : String) : String := "x_" ++ short t ++ "_vol"
def stt (t : String) : String := short t ++ "_state"

/-! ### Auxiliary facts -/

theorem names {t : String} (h : Known t) : Py.meshVol t = some (vol t) ∧ Py.stateName t = some (stt t) ∧
    Py.meshSurf t = some ("x_" ++ short t) ∧ Py.meshInit t = some ("x_" ++ short t ++ "0") := by
  rcases h with rfl | rfl | rfl | rfl <;> decide

theorem names_none {t : String} (h : ¬Known t) : Py.meshVol t = none ∧ Py.stateName t = none ∧ Py.meshSurf t = none ∧ Py.meshInit t = none := by
  unfold Known at h
  have : Py.abbreviation t = none := by
    unfold Py.abbreviation
    rw [if_neg (by tauto), if_neg (by tauto), if_neg (by tauto)]
  simp [Py.meshVol, Py.stateName, Py.meshSurf, Py.meshInit, this]

theorem vol_ne_stt (t : String) : vol t ≠ stt t := by
  unfold vol stt short
  split_ifs <;> decide

theorem source_eq {ps : List Port} (hn : ((ps.filter (·.out)).map (·.prom)).Nodup) {p q : Port} (hq : q ∈ ps) (ho : q.out = true)
    (hp : q.prom = p.prom) : source ps p = some q := by
  unfold source
  have hsome : (ps.find? fun q => q.out && q.prom == p.prom).isSome := by
    rw [List.find?_isSome]
    exact ⟨q, hq, by simp [ho, hp]⟩
  obtain ⟨r, hr⟩ := Option.isSome_iff_exists.1 hsome
  rw [hr]
  have h1 := List.find?_some hr
  have h2 := List.mem_of_find?_eq_some hr
  simp only [Bool.and_eq_true, beq_iff_eq] at h1
  have : r = q := List.inj_on_of_nodup_map hn (List.mem_filter.2 ⟨h2, h1.1⟩) (List.mem_filter.2 ⟨hq, ho⟩) (h1.2.trans hp.symm)
  rw [this]

theorem source_none {ps : List Port} {p : Port} (h : ∀ q ∈ ps, q.out = true → q.prom ≠ p.prom) : source ps p = none := by
  unfold source
  rw [List.find?_eq_none]
  intro q hq
  simp only [Bool.and_eq_true, beq_iff_eq, not_and]
  exact h q hq

/-- The ports of the scenario's parts. -/
def prePorts (b : Builder) : List Port := if b.warper = .miso then [⟨"mesh_warper", "surf_mesh_coords", "x_" ++ short b.type, false, true⟩,
  ⟨"mesh_warper", "vol_mesh_coords", vol b.type, true, true⟩] else []
def couplingPorts (b : Builder) : List Port := [⟨"state", "mesh_coords", vol b.type, false, false⟩] ++
  b.inputs.map (fun i => ⟨"state", i, i, false, false⟩) ++ [⟨"state", "state", stt b.type, true, true⟩]
def funcPorts (b : Builder) (o : Out) : List Port :=
  o.depends.map (fun i => ⟨o.prom, i, promoted (vol b.type) (stt b.type) i, false, false⟩) ++ [⟨o.prom, o.func, o.prom, true, false⟩]

theorem component_some {ps r : List Port} : component ps = some r ↔ (ps.map (·.var)).Nodup ∧ r = ps := by
  unfold component
  split_ifs with h
  · simp only [Option.some.injEq, h, true_and]; exact eq_comm
  · simp [h]

theorem functionals_some (b : Builder) (os : List Out) (r : List Port) : functionals (vol b.type) (stt b.type) os = some r ↔
    (∀ o ∈ os, ((funcPorts b o).map (·.var)).Nodup) ∧ r = os.flatMap (funcPorts b) := by
  induction os generalizing r with
  | nil => simp [functionals, eq_comm]
  | cons o os ih =>
    rw [functionals]
    simp only [Option.bind_eq_bind, Option.bind_eq_some_iff, Option.some.injEq]
    constructor
    · rintro ⟨a, ha, c, hc, rfl⟩
      obtain ⟨h1, rfl⟩ := component_some.1 ha
      obtain ⟨h2, rfl⟩ := (ih c).1 hc
      refine ⟨?_, rfl⟩
      intro o' ho'
      rcases List.mem_cons.1 ho' with rfl | h
      · exact h1
      · exact h2 o' h
    · rintro ⟨h, rfl⟩
      refine ⟨_, component_some.2 ⟨h o (by simp), rfl⟩, _, (ih _).2 ⟨fun o' h' => h o' (by simp [h']), rfl⟩, rfl⟩

/-- All ports of a scenario that sets up. -/
def ports (b : Builder) : List Port := prePorts b ++ couplingPorts b ++ b.outputs.flatMap (funcPorts b)

theorem pre_some (b : Builder) (hk : Known b.type) (r : List Port) : preGroup b = some r ↔ b.warper ≠ .idwarp ∧ r = prePorts b := by
  unfold preGroup prePorts
  rw [(names hk).1, (names hk).2.2.1]
  cases hw : b.warper
  · simp [warperAttr, eq_comm]
  · simp [warperAttr, component, eq_comm]
  · simp [warperAttr]

theorem scenario_some (b : Builder) (r : List Port) : scenario b = some r ↔ Known b.type ∧ b.warper ≠ .idwarp ∧
    ((couplingPorts b).map (·.var)).Nodup ∧ (b.outputs.map (·.prom)).Nodup ∧ (∀ o ∈ b.outputs, ((funcPorts b o).map (·.var)).Nodup) ∧
    (((ports b).filter (·.out)).map (·.prom)).Nodup ∧ r = ports b := by
  by_cases hk : Known b.type
  · have hc : ∀ r, couplingGroup b = some r ↔ ((couplingPorts b).map (·.var)).Nodup ∧ r = couplingPorts b := by
      intro r
      unfold couplingGroup
      rw [(names hk).1, (names hk).2.1]
      exact component_some
    have ho : ∀ r, outputsGroup b = some r ↔ (b.outputs.map (·.prom)).Nodup ∧ (∀ o ∈ b.outputs, ((funcPorts b o).map (·.var)).Nodup) ∧
        r = b.outputs.flatMap (funcPorts b) := by
      intro r
      unfold outputsGroup
      rw [(names hk).1, (names hk).2.1]
      simp only [Option.bind_eq_bind, Option.bind_some]
      split_ifs with h
      · rw [functionals_some]; simp [h]
      · simp [h]
    unfold scenario
    simp only [Option.bind_eq_bind, Option.bind_eq_some_iff]
    constructor
    · rintro ⟨p, hp, c, hcc, o, hoo, h⟩
      obtain ⟨a1, rfl⟩ := (pre_some b hk p).1 hp
      obtain ⟨a2, rfl⟩ := (hc c).1 hcc
      obtain ⟨a3, a4, rfl⟩ := (ho o).1 hoo
      split_ifs at h with hn
      · exact ⟨hk, a1, a2, a3, a4, hn, (Option.some.inj h).symm⟩
    · rintro ⟨_, a1, a2, a3, a4, hn, rfl⟩
      refine ⟨_, (pre_some b hk _).2 ⟨a1, rfl⟩, _, (hc _).2 ⟨a2, rfl⟩, _, (ho _).2 ⟨a3, a4, rfl⟩, ?_⟩
      exact if_pos hn
  · constructor
    · intro h
      unfold scenario couplingGroup at h
      simp only [(names_none hk).1, Option.bind_eq_bind, Option.bind_none, Option.bind_eq_some_iff, reduceCtorEq, exists_false,
        and_false] at h
    · intro h; exact absurd h.1 hk

theorem filter_flat (b : Builder) (os : List Out) :
    ((os.flatMap (funcPorts b)).filter (·.out)).map (·.prom) = os.map (·.prom) := by
  induction os with
  | nil => rfl
  | cons o os ih =>
    rw [List.flatMap_cons, List.filter_append, List.map_append, ih, List.map_cons]
    have : (funcPorts b o).filter (·.out) = [⟨o.prom, o.func, o.prom, true, false⟩] := by
      unfold funcPorts
      rw [List.filter_append, List.filter_eq_nil_iff.2 (by simp)]
      rfl
    rw [this]; rfl

theorem outs_eq (b : Builder) : ((ports b).filter (·.out)).map (·.prom) =
    (if b.warper = .miso then [vol b.type] else []) ++ [stt b.type] ++ b.outputs.map (·.prom) := by
  unfold ports
  rw [List.filter_append, List.filter_append, List.map_append, List.map_append, filter_flat]
  congr 2
  · unfold prePorts; split_ifs <;> rfl
  · unfold couplingPorts
    rw [List.filter_append, List.filter_append, List.filter_eq_nil_iff.2 (by simp : ∀ a ∈ b.inputs.map _, _)]
    rfl

/-- **C231** Exactly which builders give a scenario that sets up: known physics, a warper that is MISO's or switched off, solver inputs
without repetition and without `mesh_coords` and `state`, functionals shown under distinct names different from those of the state (and of
the volume mesh, if warped), and no functional that repeats an input or depends on itself.  Everything else raises. -/
theorem C231_setup (b : Builder) : (scenario b).isSome ↔ Known b.type ∧ b.warper ≠ .idwarp ∧
    (b.inputs.Nodup ∧ "mesh_coords" ∉ b.inputs ∧ "state" ∉ b.inputs) ∧
    ((b.outputs.map (·.prom)).Nodup ∧ stt b.type ∉ b.outputs.map (·.prom) ∧ (b.warper = .miso → vol b.type ∉ b.outputs.map (·.prom))) ∧
    ∀ o ∈ b.outputs, o.depends.Nodup ∧ o.func ∉ o.depends := by
  have hcp : ((couplingPorts b).map (·.var)).Nodup ↔ (b.inputs.Nodup ∧ "mesh_coords" ∉ b.inputs ∧ "state" ∉ b.inputs) := by
    have : (couplingPorts b).map (·.var) = "mesh_coords" :: (b.inputs ++ ["state"]) := by
      simp [couplingPorts, Function.comp_def]
    rw [this, List.nodup_cons, List.nodup_append]
    simp only [List.mem_append, List.mem_singleton, not_or, List.nodup_singleton, true_and]
    constructor
    · rintro ⟨⟨h1, _⟩, h2, h3⟩; exact ⟨h2, h1, fun h => h3 _ h _ rfl rfl⟩
    · rintro ⟨h2, h1, h3⟩; exact ⟨⟨h1, by decide⟩, h2, fun a ha c hc => by rw [hc]; rintro rfl; exact h3 ha⟩
  have hfp : ∀ o, ((funcPorts b o).map (·.var)).Nodup ↔ o.depends.Nodup ∧ o.func ∉ o.depends := by
    intro o
    have : (funcPorts b o).map (·.var) = o.depends ++ [o.func] := by simp [funcPorts, Function.comp_def]
    rw [this, List.nodup_append]
    simp only [List.nodup_singleton, List.mem_singleton, true_and]
    exact and_congr_right fun _ => ⟨fun h h' => h _ h' _ rfl rfl, fun h a ha c hc => by rw [hc]; rintro rfl; exact h ha⟩
  have hop : (((ports b).filter (·.out)).map (·.prom)).Nodup ↔ (b.outputs.map (·.prom)).Nodup ∧ stt b.type ∉ b.outputs.map (·.prom) ∧
      (b.warper = .miso → vol b.type ∉ b.outputs.map (·.prom)) := by
    rw [outs_eq]
    by_cases hw : b.warper = .miso
    · rw [if_pos hw, List.append_assoc, List.singleton_append, List.singleton_append, List.nodup_cons, List.nodup_cons, List.mem_cons, not_or]
      have := vol_ne_stt b.type
      tauto
    · rw [if_neg hw, List.nil_append, List.singleton_append, List.nodup_cons]
      tauto
  rw [Option.isSome_iff_exists]
  simp only [scenario_some, hcp, hfp, hop]
  constructor
  · rintro ⟨r, h1, h2, h3, h4, h5, h6, _⟩; exact ⟨h1, h2, h3, h6, h5⟩
  · rintro ⟨h1, h2, h3, h6, h5⟩; exact ⟨_, h1, h2, h3, h6.1, h5, h6, rfl⟩

/-- A variable called `v` that is an input, wherever it sits in a scenario. -/
theorem input_cases {b : Builder} {ps : List Port} (h : scenario b = some ps) {p : Port} (hp : p ∈ ps) (hi : p.out = false) :
    (p.comp = "mesh_warper" ∧ p.var = "surf_mesh_coords" ∧ p.prom = "x_" ++ short b.type ∧ b.warper = .miso) ∨
    (p.val = false ∧ p.prom = promoted (vol b.type) (stt b.type) p.var) := by
  obtain ⟨_, _, hcn, _, _, _, rfl⟩ := (scenario_some b ps).1 h
  unfold ports at hp
  rw [List.mem_append, List.mem_append] at hp
  rcases hp with (hp | hp) | hp
  · unfold prePorts at hp
    split_ifs at hp with hw
    · simp only [List.mem_cons, List.not_mem_nil, or_false] at hp
      rcases hp with rfl | rfl
      · exact .inl ⟨rfl, rfl, rfl, hw⟩
      · cases hi
    · cases hp
  · right
    have hc := (C231_setup b).1 (by rw [h]; rfl)
    unfold couplingPorts at hp
    simp only [List.mem_append, List.mem_singleton, List.mem_map] at hp
    rcases hp with (rfl | ⟨i, hii, rfl⟩) | rfl
    · exact ⟨rfl, rfl⟩
    · refine ⟨rfl, ?_⟩
      have h1 : i ≠ "mesh_coords" := fun e => hc.2.2.1.2.1 (e ▸ hii)
      have h2 : i ≠ "state" := fun e => hc.2.2.1.2.2 (e ▸ hii)
      simp [promoted, h1, h2]
    · cases hi
  · right
    rw [List.mem_flatMap] at hp
    obtain ⟨o, _, hp⟩ := hp
    unfold funcPorts at hp
    simp only [List.mem_append, List.mem_singleton, List.mem_map] at hp
    rcases hp with ⟨i, _, rfl⟩ | rfl
    · exact ⟨rfl, rfl⟩
    · cases hi

/-- **C231** One mesh for all: with MISO's warper the `mesh_coords` of the solver and of every functional is the warped volume mesh. -/
theorem C231_mesh {b : Builder} {ps : List Port} (h : scenario b = some ps) (hw : b.warper = .miso) {p : Port} (hp : p ∈ ps)
    (hi : p.out = false) (hv : p.var = "mesh_coords") :
    ∃ q, source ps p = some q ∧ q.comp = "mesh_warper" ∧ q.var = "vol_mesh_coords" := by
  obtain ⟨_, _, _, _, _, hn, hps⟩ := (scenario_some b ps).1 h
  rcases input_cases h hp hi with ⟨_, h2, _, _⟩ | ⟨_, h2⟩
  · rw [hv] at h2; exact absurd h2 (by decide)
  · refine ⟨⟨"mesh_warper", "vol_mesh_coords", vol b.type, true, true⟩, source_eq (by rw [hps]; exact hn) ?_ rfl ?_, rfl, rfl⟩
    · rw [hps]
      unfold ports prePorts
      rw [if_pos hw]
      simp
    · rw [h2, hv]; rfl

/-- **C231** One state for all: the `state` every functional reads is the one the solver computes. -/
theorem C231_state {b : Builder} {ps : List Port} (h : scenario b = some ps) {p : Port} (hp : p ∈ ps) (hi : p.out = false)
    (hv : p.var = "state") : ∃ q, source ps p = some q ∧ q.comp = "state" ∧ q.var = "state" := by
  obtain ⟨_, _, _, _, _, hn, hps⟩ := (scenario_some b ps).1 h
  rcases input_cases h hp hi with ⟨_, h2, _, _⟩ | ⟨_, h2⟩
  · rw [hv] at h2; exact absurd h2 (by decide)
  · refine ⟨⟨"state", "state", stt b.type, true, true⟩, source_eq (by rw [hps]; exact hn) ?_ rfl ?_, rfl, rfl⟩
    · rw [hps]
      unfold ports couplingPorts
      simp
    · rw [h2, hv]; rfl

/-- **C231** Every other input `v` of the solver or of a functional keeps its name, so all components that use it share it: if a functional
is shown under that name it is what they read, and otherwise (the name being neither the volume mesh's nor the state's) the value comes from
outside the scenario, or is 1 in every entry if nothing outside provides it. -/
theorem C231_other {K : Type} [One K] {b : Builder} {ps : List Port} (h : scenario b = some ps) {p : Port} (hp : p ∈ ps)
    (hi : p.out = false) (h1 : p.var ≠ "mesh_coords") (h2 : p.var ≠ "state") (h3 : p.comp ≠ "mesh_warper" ∨ p.var ≠ "surf_mesh_coords") :
    p.prom = p.var ∧ (∀ o ∈ b.outputs, o.prom = p.var → ∃ q, source ps p = some q ∧ q.comp = o.prom ∧ q.var = o.func) ∧
    (p.var ∉ b.outputs.map (·.prom) → p.var ≠ vol b.type → p.var ≠ stt b.type → source ps p = none ∧
      ∀ outVal initVal : Port → ℕ → K, read outVal initVal ps p = fun _ => 1) := by
  obtain ⟨_, _, _, _, _, hn, hps⟩ := (scenario_some b ps).1 h
  rcases input_cases h hp hi with ⟨c1, c2, _, _⟩ | ⟨c1, c2⟩
  · rcases h3 with h3 | h3
    · exact absurd c1 h3
    · exact absurd c2 h3
  · have hpp : p.prom = p.var := by rw [c2]; simp [promoted, h1, h2]
    refine ⟨hpp, ?_, ?_⟩
    · intro o ho hop
      refine ⟨⟨o.prom, o.func, o.prom, true, false⟩, source_eq (by rw [hps]; exact hn) ?_ rfl (hop.trans hpp.symm), rfl, rfl⟩
      rw [hps]
      unfold ports
      rw [List.mem_append]
      right
      rw [List.mem_flatMap]
      exact ⟨o, ho, by simp [funcPorts]⟩
    · intro k1 k2 k3
      have hs : source ps p = none := by
        refine source_none fun q hq ho e => ?_
        have hm : q.prom ∈ ((ports b).filter (·.out)).map (·.prom) := List.mem_map.2 ⟨q, List.mem_filter.2 ⟨hps ▸ hq, ho⟩, rfl⟩
        rw [outs_eq, e, hpp] at hm
        simp only [List.mem_append, List.mem_singleton] at hm
        rcases hm with (hm | hm) | hm
        · split_ifs at hm
          · exact k2 (by simpa using hm)
          · cases hm
        · exact k3 hm
        · exact k1 hm
      refine ⟨hs, fun _ _ => ?_⟩
      unfold read
      rw [hs]
      simp [c1]

/-- **C231** With the warper switched off nothing in the scenario feeds `mesh_coords` (unless a functional is shown under the volume mesh's
name): solver and functionals are handed a mesh whose coordinates are all 1. -/
theorem C231_unwarped {K : Type} [One K] {b : Builder} {ps : List Port} (h : scenario b = some ps) (hw : b.warper = .off)
    (hv : vol b.type ∉ b.outputs.map (·.prom)) {p : Port} (hp : p ∈ ps) (hi : p.out = false) (hm : p.var = "mesh_coords")
    (outVal initVal : Port → ℕ → K) : read outVal initVal ps p = fun _ => 1 := by
  obtain ⟨_, _, _, _, _, hn, hps⟩ := (scenario_some b ps).1 h
  rcases input_cases h hp hi with ⟨_, h2, _, _⟩ | ⟨c1, h2⟩
  · rw [hm] at h2; exact absurd h2 (by decide)
  · have hs : source ps p = none := by
      refine source_none fun q hq ho e => ?_
      have hmm : q.prom ∈ ((ports b).filter (·.out)).map (·.prom) := List.mem_map.2 ⟨q, List.mem_filter.2 ⟨hps ▸ hq, ho⟩, rfl⟩
      rw [outs_eq, e, h2, hm, hw] at hmm
      simp only [reduceCtorEq, if_false, List.nil_append, List.mem_append, List.mem_singleton] at hmm
      rcases hmm with hmm | hmm
      · exact vol_ne_stt _ hmm
      · exact hv hmm
    unfold read
    rw [hs]
    simp [c1]

/-- **C231** The mesh group: it provides the initial surface coordinates exactly for known physics with MISO's warper; with the warper off,
or with "idwarp", asking for it raises. -/
theorem C231_mesh_group (b : Builder) : (Known b.type → b.warper = .miso → ∃ q, meshGroup b = some [q] ∧ q.out = true ∧
      q.prom = "x_" ++ short b.type ++ "0") ∧ (¬Known b.type ∨ b.warper ≠ .miso → meshGroup b = none) := by
  constructor
  · intro hk hw
    refine ⟨⟨"mesh", "x_" ++ short b.type ++ "0", "x_" ++ short b.type ++ "0", true, true⟩, ?_, rfl, rfl⟩
    unfold meshGroup
    rw [hw, (names hk).2.2.2]
    rfl
  · intro h
    unfold meshGroup
    by_cases hk : Known b.type
    · have hw : b.warper ≠ .miso := h.resolve_left (not_not_intro hk)
      rw [(names hk).2.2.2]
      cases e : b.warper
      · rfl
      · exact absurd e hw
      · rfl
    · rw [(names_none hk).2.2.2]
      cases warperAttr b.warper <;> rfl

/-! ### Non-vacuity and the counterexample -/

/-- A motor: field solver with two inputs, two functionals, one of them a function of the other. -/
def motor (w : Warper) : Builder := ⟨"magnetostatic", ["current", "frequency"], w,
  [⟨"B_max", "max_flux", ["mesh_coords", "state"]⟩, ⟨"loss", "core_loss", ["mesh_coords", "B_max", "frequency"]⟩]⟩

theorem motor_ok : (scenario (motor .miso)).isSome ∧ (scenario (motor .off)).isSome ∧ scenario (motor .idwarp) = none := by decide

/-- The loss reads the functional shown as `B_max`. -/
example : ((scenario (motor .miso)).bind fun ps => source ps ⟨"loss", "B_max", "B_max", false, false⟩).map (fun q => (q.comp, q.var)) =
    some ("B_max", "max_flux") := by decide

/-- **C231** The claim "without a warper the solver computes on its own mesh" is false. -/
theorem C231_own_mesh_false : ¬∀ (b : Builder) (ps : List Port) (p : Port) (own : ℕ → ℚ), scenario b = some ps → b.warper = .off →
    p ∈ ps → p.comp = "state" → p.out = false → p.var = "mesh_coords" → ∀ outVal initVal, read outVal initVal ps p = own := by
  intro h
  obtain ⟨ps, hs⟩ := Option.isSome_iff_exists.1 motor_ok.2.1
  have hp : (⟨"state", "mesh_coords", "x_em_vol", false, false⟩ : Port) ∈ ps := by
    rw [((scenario_some _ _).1 hs).2.2.2.2.2.2]
    decide
  have h0 := h _ ps _ (fun _ => 0) hs rfl hp rfl rfl rfl (fun _ _ => 0) (fun _ _ => 0)
  have h1 := h _ ps _ (fun _ => 5) hs rfl hp rfl rfl rfl (fun _ _ => 0) (fun _ _ => 0)
  have := congrFun (h0.symm.trans h1) 0
  exact absurd this (by decide)

end Verif.Mphys
