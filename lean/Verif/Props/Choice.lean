import Verif.Lemmas.Choice

/-!
# C131: choice of implementations

Every text that the selections accept chooses the implementation of this name, or the run is refused before it starts.
-/

namespace Verif.Props

open Verif.Choice
open Verif.Choice.Spec
open Verif.Params (Vals decls World calls)
open Verif.BaseTools (Call)

/-- After any command line that is accepted, every text is one of the alternatives. -/
theorem C131_valid (w : World) (x y : Vals) (hx : Initial x) (cs : List Call) (h : calls w decls x cs = .ok y) : Valid y :=
  valid_calls cs x y (valid_initial hx) h

/-- The direction of the interfaces of new particles is the one that is named. -/
theorem C131_direction {x : Vals} (hx : Valid x) :
    ∃ d, toDirection (x ["geometry_data", "interface_direction"]) = .ok d ∧ (Direction.name d).toList = x ["geometry_data", "interface_direction"] := by
  obtain ⟨d, hd⟩ := select_some (e := .assertThrow) (t := [("Inside", Direction.inside), ("Outside", .outside), ("Middle", .middle)])
    (hx (["geometry_data", "interface_direction"], ["Inside", "Outside", "Middle"]) (by decide))
  exact ⟨d, hd, select_named (name := Direction.name) (by decide) hd⟩

/-- Whatever runs is what the texts name. -/
theorem C131_named {b : Build} {new : Bool} {f : Flags} {x : Vals} {c : Config} (hx : Valid x) (h : configure b new f x = .ok c) : Named b new x c := by
  unfold configure at h
  obtain ⟨step, h1, h⟩ := Res.bind_eq_ok.mp h
  obtain ⟨refine_, h2, h⟩ := Res.bind_eq_ok.mp h
  obtain ⟨mesh, h3, h⟩ := Res.bind_eq_ok.mp h
  obtain ⟨shape, h4, h⟩ := Res.bind_eq_ok.mp h
  obtain ⟨plane, h5, h⟩ := Res.bind_eq_ok.mp h
  obtain ⟨precond, h6, h⟩ := Res.bind_eq_ok.mp h
  obtain ⟨_, h7, h⟩ := Res.bind_eq_ok.mp h
  obtain ⟨solvers, h8, h⟩ := Res.bind_eq_ok.mp h
  obtain ⟨cl, h9, h⟩ := Res.bind_eq_ok.mp h
  obtain rfl := Res.ok.inj h
  have hpre : IsPrecond b x precond := by
    unfold toPrecond at h6
    split at h6
    · cases h6
    · split at h6
      · rename_i ho
        unfold createBlocks at h6
        obtain ⟨n, k1, h6⟩ := Res.bind_eq_ok.mp h6
        obtain ⟨p0, k2, h6⟩ := Res.bind_eq_ok.mp h6
        obtain ⟨p1, k3, h6⟩ := Res.bind_eq_ok.mp h6
        have hn : (approximations.map String.toList)[n]? = some (bp2 x ["block_1_approximation"]) := by
          obtain ⟨s, hs, hv⟩ := hx (["preconditioners_data", "block_preconditioner_2_data", "block_1_approximation"], ["all", "const", "max", "avg"])
            (by decide)
          have hv' : bp2 x ["block_1_approximation"] = s.toList := hv
          rw [hv'] at k1 ⊢
          have T : ∀ s ∈ approximations, (match toApproximation s.toList with
            | .ok n => decide ((approximations.map String.toList)[n]? = some s.toList) | _ => false) = true := by decide +kernel
          have := T s hs
          rw [k1] at this
          exact of_decide_eq_true this
        split at h6
        · rename_i hm
          obtain ⟨p2, k4, h6⟩ := Res.bind_eq_ok.mp h6
          obtain rfl := Res.ok.inj h6
          exact ⟨ho, createPreconditioner_named k2, second_named k3, hn, hm, createPreconditioner_named k4⟩
        · rename_i hm
          obtain rfl := Res.ok.inj h6
          exact ⟨ho, createPreconditioner_named k2, second_named k3, hn, by simpa using hm⟩
      · obtain ⟨p, k, h6⟩ := Res.bind_eq_ok.mp h6
        obtain rfl := Res.ok.inj h6
        exact createPreconditioner_named k
  have hsol : (solvers.isSome = true ↔ step = .bdf1 ∨ step = .bdf2 ∨ step = .bdf3) ∧ ∀ s, solvers = some s →
      (Linear.name s.linear).toList = x ["nonlinear_data", "l_solver"] ∧
      (Nonlinear.name s.nonlinear).toList = x ["nonlinear_data", "nonlinear_solver_type"] ∧
      ((s.ortho.isSome = true ↔ s.linear = .gmres) ∧
        ∀ o, s.ortho = some o → (Ortho.name o).toList = x ["nonlinear_data", "gmres_data", "orthogonalization_strategy"]) := by
    unfold onlyIf at h8
    split at h8
    · rename_i hi
      obtain ⟨s, k, h8⟩ := Res.bind_eq_ok.mp h8
      obtain rfl := Res.ok.inj h8
      refine ⟨⟨fun _ => (by cases step <;> first | (exact Or.inl rfl) | (exact Or.inr (Or.inl rfl)) | (exact Or.inr (Or.inr rfl)) | cases hi),
        fun _ => rfl⟩, ?_⟩
      rintro s' hs'
      obtain rfl := Option.some.inj hs'
      unfold toSolvers at k
      obtain ⟨l, k1, k⟩ := Res.bind_eq_ok.mp k
      obtain ⟨n, k2, k⟩ := Res.bind_eq_ok.mp k
      have hl : (Linear.name l).toList = x ["nonlinear_data", "l_solver"] := by
        unfold toLinear at k1
        split at k1
        · rename_i hd
          obtain rfl := Res.ok.inj k1
          exact hd.symm
        · exact select_named (name := Linear.name) (by decide) k1
      have hn : (Nonlinear.name n).toList = x ["nonlinear_data", "nonlinear_solver_type"] := by
        unfold toNonlinear at k2
        refine select_named (name := Nonlinear.name) ?_ k2
        cases b.snes <;> decide
      split at k
      · rename_i hg
        obtain ⟨o, k3, k⟩ := Res.bind_eq_ok.mp k
        obtain rfl := Res.ok.inj k
        refine ⟨hl, hn, ⟨fun _ => hg, fun _ => rfl⟩, fun o' ho' => ?_⟩
        obtain rfl := Option.some.inj ho'
        exact select_named (name := Ortho.name) (by decide) k3
      · rename_i hg
        obtain rfl := Res.ok.inj k
        exact ⟨hl, hn, ⟨fun h' => (by cases h'), fun h' => absurd h' hg⟩, fun o ho => by cases ho⟩
    · rename_i hi
      obtain rfl := Res.ok.inj h8
      refine ⟨⟨fun h' => (by cases h'), fun h' => ?_⟩, fun s hs => by cases hs⟩
      rcases h' with rfl | rfl | rfl <;> exact absurd rfl hi
  have hmat : (MaterialType.name (toMaterial (x ["material_data", "type"]))).toList = x ["material_data", "type"] := by
    obtain ⟨s, hs, hv⟩ := hx (["material_data", "type"], ["Abstract", "Realistic"]) (by decide)
    have hv' : x ["material_data", "type"] = s.toList := hv
    rw [hv']
    clear hv hv'
    revert s
    decide +kernel
  have hcl : if b.coupled then (Clamp.name cl).toList = x ["boundary_conditions", "type"] else cl = .none := by
    unfold clamp at h9
    split at h9
    · rename_i hb
      rw [if_pos hb]
      obtain ⟨_, _, h9⟩ := Res.bind_eq_ok.mp h9
      obtain rfl := Res.ok.inj h9
      obtain ⟨s, hs, hv⟩ := hx (["boundary_conditions", "type"], ["None", "CentralSection", "CentralParticle", "CentralParticleSection", "Domain"])
        (by decide)
      have hv' : x ["boundary_conditions", "type"] = s.toList := hv
      rw [hv']
      clear hv hv'
      revert s
      decide +kernel
    · rename_i hb
      rw [if_neg hb]
      exact (Res.ok.inj h9).symm
  refine ⟨select_named (name := Step.name) (by decide) h1, ?_, select_named (name := Mesh.name) (by decide) h3, hmat,
    select_named (name := Shape.name) (by decide) h4, select_named (name := Plane.name) (by decide) h5, hpre, hsol, hcl⟩
  unfold onlyIf at h2
  cases new with
  | true =>
    obtain ⟨r, k, h2⟩ := Res.bind_eq_ok.mp h2
    obtain rfl := Res.ok.inj h2
    refine ⟨rfl, fun r' hr' => ?_⟩
    obtain rfl := Option.some.inj hr'
    exact select_named (name := Refine.name) (by decide) k
  | false =>
    obtain rfl := Res.ok.inj h2
    exact ⟨rfl, fun r hr => by cases hr⟩

/-- The preconditioner is created exactly for the names that can run; otherwise an exception is thrown. -/
theorem C131_precond {b : Build} {x : Vals} (hx : Valid x) :
    ((∃ p, toPrecond b x = .ok p) ↔ NoMultigrid (outer x) ∧
      (outer x = "BlockPreconditioner2".toList → NoMultigrid (bp2 x ["block_0", "type"]) ∧
        (∃ s ∈ second, bp2 x ["block_1", "type"] = s.toList) ∧ (b.monolithic = true → NoMultigrid (bp2 x ["block_2", "type"])))) ∧
    ((∃ p, toPrecond b x = .ok p) ∨ toPrecond b x = .exc .assertThrow) := by
  have v0 := hx (["preconditioners_data", "outer", "type"], Params.preconditionerTypes ++ ["BlockPreconditioner2"]) (by decide)
  have v1 := hx (["preconditioners_data", "block_preconditioner_2_data", "block_0", "type"], Params.preconditionerTypes) (by decide)
  have v2 := hx (["preconditioners_data", "block_preconditioner_2_data", "block_1", "type"], Params.preconditionerTypes) (by decide)
  have v3 := hx (["preconditioners_data", "block_preconditioner_2_data", "block_2", "type"], Params.preconditionerTypes) (by decide)
  have v4 := hx (["preconditioners_data", "block_preconditioner_2_data", "block_1_approximation"], ["all", "const", "max", "avg"]) (by decide)
  change ∃ s ∈ (_ : List String), outer x = s.toList at v0
  change ∃ s ∈ (_ : List String), bp2 x ["block_0", "type"] = s.toList at v1
  change ∃ s ∈ (_ : List String), bp2 x ["block_1", "type"] = s.toList at v2
  change ∃ s ∈ (_ : List String), bp2 x ["block_2", "type"] = s.toList at v3
  change ∃ s ∈ (_ : List String), bp2 x ["block_1_approximation"] = s.toList at v4
  have d1 : "BlockPreconditioner2".toList ≠ "GMG".toList := by decide +kernel
  have d2 : "BlockPreconditioner2".toList ≠ "BlockGMG".toList := by decide +kernel
  have s1 : ¬ ∃ s ∈ second, "GMG".toList = s.toList := by decide +kernel
  have s2 : ¬ ∃ s ∈ second, "BlockGMG".toList = s.toList := by decide +kernel
  unfold toPrecond
  by_cases hm : multigrid x = true
  · rw [if_pos hm]
    refine ⟨⟨fun ⟨p, hp⟩ => (by cases hp), fun ⟨h1, h2⟩ => ?_⟩, Or.inr rfl⟩
    rcases of_decide_eq_true hm with h | h | ⟨h, h'⟩
    · exact absurd h h1.1
    · exact absurd h h1.2
    · obtain ⟨_, ⟨s, hs, e⟩, _⟩ := h2 h
      rcases h' with h' | h'
      · exact absurd ⟨s, hs, h'.symm.trans e⟩ s1
      · exact absurd ⟨s, hs, h'.symm.trans e⟩ s2
  · rw [if_neg hm]
    have hm' := fun h => hm (decide_eq_true h)
    have n0 : NoMultigrid (outer x) := ⟨fun h => hm' (Or.inl h), fun h => hm' (Or.inr (Or.inl h))⟩
    by_cases ho : outer x = "BlockPreconditioner2".toList
    · rw [if_pos ho]
      obtain ⟨n, hn⟩ := select_some (e := .assertThrow) (t := [("all", 0), ("const", 1), ("max", 2), ("avg", 3)]) v4
      unfold createBlocks toApproximation
      rw [hn, Res.ok_bind]
      rcases createPreconditioner_cases (bp2 x ["block_0", "type"]) with ⟨p0, h0⟩ | h0
      · rw [h0, Res.ok_bind]
        have n1 : NoMultigrid (bp2 x ["block_0", "type"]) := (create_iff v1).mp ⟨p0, h0⟩
        rcases createSecond_cases (v := bp2 x ["block_1", "type"]) with ⟨p1, h1⟩ | h1
        · rw [h1, Res.ok_bind]
          have n2 := (second_iff v2).mp ⟨p1, h1⟩
          cases hb : b.monolithic with
          | true =>
            rw [if_pos rfl]
            rcases createPreconditioner_cases (bp2 x ["block_2", "type"]) with ⟨p2, h2⟩ | h2
            · rw [h2, Res.ok_bind]
              exact ⟨⟨fun _ => ⟨n0, fun _ => ⟨n1, n2, fun _ => (create_iff v3).mp ⟨p2, h2⟩⟩⟩, fun _ => ⟨_, rfl⟩⟩, Or.inl ⟨_, rfl⟩⟩
            · rw [h2]
              refine ⟨⟨fun ⟨p, hp⟩ => (by cases hp), fun ⟨_, h⟩ => ?_⟩, Or.inr rfl⟩
              obtain ⟨p, hp⟩ := (create_iff v3).mpr ((h ho).2.2 rfl)
              rw [h2] at hp; cases hp
          | false =>
            rw [if_neg (by simp)]
            exact ⟨⟨fun _ => ⟨n0, fun _ => ⟨n1, n2, fun h => by cases h⟩⟩, fun _ => ⟨_, rfl⟩⟩, Or.inl ⟨_, rfl⟩⟩
        · rw [h1]
          refine ⟨⟨fun ⟨p, hp⟩ => (by cases hp), fun ⟨_, h⟩ => ?_⟩, Or.inr rfl⟩
          obtain ⟨p, hp⟩ := (second_iff v2).mpr (h ho).2.1
          rw [h1] at hp; cases hp
      · rw [h0]
        refine ⟨⟨fun ⟨p, hp⟩ => (by cases hp), fun ⟨_, h⟩ => ?_⟩, Or.inr rfl⟩
        obtain ⟨p, hp⟩ := (create_iff v1).mpr (h ho).1
        rw [h0] at hp; cases hp
    · rw [if_neg ho]
      have v0' : ∃ s ∈ Params.preconditionerTypes, outer x = s.toList := by
        obtain ⟨s, hs, e⟩ := v0
        rcases List.mem_append.mp hs with hs | hs
        · exact ⟨s, hs, e⟩
        · rw [List.mem_singleton] at hs; subst hs; exact absurd e ho
      obtain ⟨p, hp⟩ := (create_iff v0').mpr n0
      rw [hp, Res.ok_bind]
      exact ⟨⟨fun _ => ⟨n0, fun h => absurd h ho⟩, fun _ => ⟨_, rfl⟩⟩, Or.inl ⟨_, rfl⟩⟩

/-- Which choices run: all but those with multigrid, with second blocks that are not supported, with finite differences or the direct solver without
a matrix, and with SNES in a program without it. All others are refused by an exception. -/
theorem C131_runs (b : Build) (new : Bool) (f : Flags) {x : Vals} (hx : Valid x) :
    ((∃ c, configure b new f x = .ok c) ↔ Runs b f x) ∧ (¬ Runs b f x → configure b new f x = .exc .assertThrow) := by
  obtain ⟨step, h1⟩ := select_some (e := .outOfRange) (t := [("BDF1", Step.bdf1), ("BDF2", .bdf2), ("BDF3", .bdf3), ("FE", .forwardEuler),
    ("RK4", .rungeKutta4)]) (hx (["time_integration_data", "integration_scheme"], ["BDF1", "BDF2", "BDF3", "FE", "RK4"]) (by decide))
  obtain ⟨ref, h2⟩ := select_some (e := .assertThrow) (t := [("None", Refine.none), ("Base", .base), ("Full", .full)])
    (hx (["geometry_data", "global_refinement"], ["None", "Base", "Full"]) (by decide))
  obtain ⟨mesh, h3⟩ := select_some (e := .assertThrow) (t := [("Interface", Mesh.interface), ("MaxRadius", .maxRadius), ("Divisions", .divisions)])
    (hx (["geometry_data", "initial_mesh"], ["Interface", "MaxRadius", "Divisions"]) (by decide))
  obtain ⟨shape, h4⟩ := select_some (e := .assertThrow) (t := [("Spherical", Shape.spherical), ("Elliptical", .elliptical), ("Wavefront", .wavefront)])
    (hx (["grain_tracker_data", "grain_representation"], ["Spherical", "Elliptical", "Wavefront"]) (by decide))
  obtain ⟨plane, h5⟩ := select_some (e := .assertThrow) (t := [("None", Plane.none), ("PlaneStrain", .strain), ("PlaneStress", .stress)])
    (hx (["material_data", "mechanics_data", "plane_type"], ["None", "PlaneStrain", "PlaneStress"]) (by decide))
  have e2 : onlyIf new (toRefine (x ["geometry_data", "global_refinement"])) = .ok (if new then some ref else none) := by
    cases new with
    | true => rw [onlyIf, if_pos rfl, toRefine, h2]; rfl
    | false => rfl
  have hlin : ∃ l, toLinear (x ["nonlinear_data", "l_solver"]) = .ok l := by
    obtain ⟨s, hs, hv⟩ := hx (["nonlinear_data", "l_solver"], ["GMRES", "IDR", "Bicgstab", "Relaxation", "Direct"]) (by decide)
    have hv' : x ["nonlinear_data", "l_solver"] = s.toList := hv
    unfold toLinear
    by_cases hd : x ["nonlinear_data", "l_solver"] = "Direct".toList
    · rw [if_pos hd]; exact ⟨_, rfl⟩
    · rw [if_neg hd]
      refine select_some ⟨s, ?_, hv'⟩
      have : ∀ s ∈ ["GMRES", "IDR", "Bicgstab", "Relaxation", "Direct"], s ≠ "Direct" →
          s ∈ [("GMRES", Linear.gmres), ("Relaxation", .relaxation), ("IDR", .idr), ("Bicgstab", .bicgstab)].map Prod.fst := by decide
      exact this s hs (fun h => hd (hv'.trans (congrArg _ h)))
  obtain ⟨lin, hlin⟩ := hlin
  obtain ⟨ort, hort⟩ := select_some (e := .assertThrow) (t := [("classical gram schmidt", Ortho.classical), ("modified gram schmidt", .modified)])
    (hx (["nonlinear_data", "gmres_data", "orthogonalization_strategy"], ["classical gram schmidt", "modified gram schmidt"]) (by decide))
  have hsolv : ∀ n, toNonlinear b (x ["nonlinear_data", "nonlinear_solver_type"]) = .ok n → ∃ s, toSolvers b x = .ok s := by
    intro n hn
    unfold toSolvers toOrtho
    rw [hlin, Res.ok_bind, hn, Res.ok_bind]
    by_cases hg : lin = .gmres
    · rw [if_pos hg, hort]; exact ⟨_, rfl⟩
    · rw [if_neg hg]; exact ⟨_, rfl⟩
  have hnon : (∃ n, toNonlinear b (x ["nonlinear_data", "nonlinear_solver_type"]) = .ok n) ↔
      (x ["nonlinear_data", "nonlinear_solver_type"] = "SNES".toList → b.snes = true) := by
    obtain ⟨s, hs, hv⟩ := hx (["nonlinear_data", "nonlinear_solver_type"], ["damped", "NOX", "SNES"]) (by decide)
    have hv' : x ["nonlinear_data", "nonlinear_solver_type"] = s.toList := hv
    rw [hv']
    have T : ∀ s ∈ ["damped", "NOX", "SNES"], ∀ t : Bool, (match toNonlinear ⟨false, false, t⟩ s.toList with | .ok _ => true | _ => false) =
      decide (s = "SNES" → t = true) := by decide +kernel
    have hb : toNonlinear b s.toList = toNonlinear ⟨false, false, b.snes⟩ s.toList := rfl
    have h := T s hs b.snes
    rw [← hb] at h
    constructor
    · rintro ⟨n, hn⟩ he
      rw [hn] at h
      exact of_decide_eq_true h.symm (toList_inj he)
    · intro he
      rcases select_cases (e := .assertThrow) (v := s.toList) ([("damped", Nonlinear.damped), ("NOX", .nox)] ++ if b.snes then [("SNES", .snes)] else [])
        with ⟨a, ha⟩ | ha
      · exact ⟨a, ha⟩
      · have ha' : toNonlinear b s.toList = .exc .assertThrow := ha
        rw [ha'] at h
        exact absurd (fun e => he (congrArg _ e)) (of_decide_eq_false h.symm)
  have hstep : step.implicit = true ↔ x ["time_integration_data", "integration_scheme"] ∈ ["BDF1", "BDF2", "BDF3"].map String.toList := by
    have hn := select_named (name := Step.name) (by decide) h1
    rw [show x ["time_integration_data", "integration_scheme"] = (Step.name step).toList from hn.symm]
    cases step <;> decide +kernel
  have hclamp : ∃ c, clamp b f (x ["boundary_conditions", "type"]) = .ok c := by
    unfold clamp
    split
    · obtain ⟨s, hs, hv⟩ := hx (["boundary_conditions", "type"], ["None", "CentralSection", "CentralParticle", "CentralParticleSection", "Domain"])
        (by decide)
      have hv' : x ["boundary_conditions", "type"] = s.toList := hv
      rw [hv']
      have T : ∀ s ∈ ["None", "CentralSection", "CentralParticle", "CentralParticleSection", "Domain"], ∀ a b c : Bool,
          (!(toClamp s.toList).checksTracker || trackerEnabled ⟨a, b, c⟩ s.toList) = true := by
        decide +kernel
      have h : (!(toClamp s.toList).checksTracker || trackerEnabled f s.toList) = true := T s hs f.matrixBased f.fdmJacobian f.tracked
      rw [h]
      exact ⟨_, rfl⟩
    · exact ⟨_, rfl⟩
  obtain ⟨cl, hclamp⟩ := hclamp
  have hchecks : (checks f x = .ok () ↔ (f.fdmJacobian = true → f.matrixBased = true) ∧
      (x ["nonlinear_data", "l_solver"] = "Direct".toList → f.matrixBased = true)) ∧ (checks f x = .ok () ∨ checks f x = .exc .assertThrow) := by
    unfold checks Res.assertThrow
    cases f.fdmJacobian <;> cases f.matrixBased <;> by_cases hd : x ["nonlinear_data", "l_solver"] = "Direct".toList <;>
      simp only [hd, ne_eq, not_true_eq_false, not_false_eq_true, decide_true, decide_false, Bool.not_true, Bool.not_false, Bool.or_true,
        Bool.or_false, if_true, Bool.false_eq_true, if_false, Res.ok_bind, Res.exc_bind] <;> simp
  obtain ⟨hp1, hp2⟩ := C131_precond (b := b) hx
  -- the run in one equation
  have hc : configure b new f x = (do
      let precond ← toPrecond b x
      checks f x
      let solvers ← onlyIf step.implicit (toSolvers b x)
      .ok ⟨step, if new then some ref else none, mesh, toMaterial (x ["material_data", "type"]), shape, plane, precond, solvers, cl⟩) := by
    unfold configure toStep toMesh toShape toPlane
    rw [h1, Res.ok_bind, e2, Res.ok_bind, h3, Res.ok_bind, h4, Res.ok_bind, h5, Res.ok_bind, hclamp]
    rfl
  rw [hc]
  have hruns : Runs b f x ↔ (∃ p, toPrecond b x = .ok p) ∧ checks f x = .ok () ∧ (step.implicit = true →
      ∃ n, toNonlinear b (x ["nonlinear_data", "nonlinear_solver_type"]) = .ok n) := by
    rw [hp1, hchecks.1, hstep, hnon]
    exact ⟨fun h => ⟨⟨h.outer, h.blocks⟩, ⟨h.fdm, h.direct⟩, h.snes⟩, fun ⟨⟨h1, h2⟩, ⟨h3, h4⟩, h5⟩ => ⟨h1, h2, h3, h4, h5⟩⟩
  rw [hruns]
  rcases hp2 with ⟨p, hp⟩ | hp
  · rw [hp, Res.ok_bind]
    rcases hchecks.2 with hk | hk
    · rw [hk, Res.ok_bind]
      by_cases hi : step.implicit = true
      · rw [onlyIf, if_pos hi]
        by_cases hn : ∃ n, toNonlinear b (x ["nonlinear_data", "nonlinear_solver_type"]) = .ok n
        · obtain ⟨n, hn'⟩ := hn
          obtain ⟨s, hs⟩ := hsolv n hn'
          have hn : ∃ n, toNonlinear b (x ["nonlinear_data", "nonlinear_solver_type"]) = .ok n := ⟨n, hn'⟩
          rw [hs]
          exact ⟨⟨fun _ => ⟨⟨p, rfl⟩, rfl, fun _ => hn⟩, fun _ => ⟨_, rfl⟩⟩, fun h => absurd ⟨⟨p, rfl⟩, rfl, fun _ => hn⟩ h⟩
        · have hs : toSolvers b x = .exc .assertThrow := by
            unfold toSolvers
            rw [hlin, Res.ok_bind]
            rcases select_cases (e := .assertThrow) (v := x ["nonlinear_data", "nonlinear_solver_type"])
              ([("damped", Nonlinear.damped), ("NOX", .nox)] ++ if b.snes then [("SNES", .snes)] else []) with ⟨a, ha⟩ | ha
            · exact absurd ⟨a, ha⟩ hn
            · rw [toNonlinear, ha]; rfl
          rw [hs]
          exact ⟨⟨fun ⟨c, h⟩ => (by cases h), fun ⟨_, _, h⟩ => absurd (h hi) hn⟩, fun _ => rfl⟩
      · rw [onlyIf, if_neg hi, Res.ok_bind]
        exact ⟨⟨fun _ => ⟨⟨p, rfl⟩, rfl, fun h => absurd h hi⟩, fun _ => ⟨_, rfl⟩⟩, fun h => absurd ⟨⟨p, rfl⟩, rfl, fun h => absurd h hi⟩ h⟩
    · rw [hk]
      exact ⟨⟨fun ⟨c, h⟩ => (by cases h), fun ⟨_, h, _⟩ => (by cases h)⟩, fun _ => rfl⟩
  · rw [hp]
    exact ⟨⟨fun ⟨c, h⟩ => (by cases h), fun ⟨⟨_, h⟩, _⟩ => (by cases h)⟩, fun _ => rfl⟩

/-- A command line that is accepted and asks for something that can run gets what it asks for; otherwise it is refused by an exception. -/
theorem C131_partial (w : World) (x y : Vals) (hx : Initial x) (cs : List Call) (h : calls w decls x cs = .ok y) (b : Build) (new : Bool) (f : Flags) :
    (Runs b f y → ∃ c, configure b new f y = .ok c ∧ Named b new y c) ∧ (¬ Runs b f y → configure b new f y = .exc .assertThrow) := by
  have hy := C131_valid w x y hx cs h
  refine ⟨fun hr => ?_, (C131_runs b new f hy).2⟩
  obtain ⟨c, hc⟩ := (C131_runs b new f hy).1.mpr hr
  exact ⟨c, hc, C131_named hy hc⟩

namespace Ex131

def world : World := ⟨fun _ _ => true, fun _ => none, fun _ => 1, none, none⟩
/-- Initial values. -/
def init : Vals := fun m => ((Params.initial.lookup m).getD "").toList
def flags : Flags := ⟨false, false, true⟩
def prog : Build := ⟨false, false, false⟩

theorem init_initial : Initial init := by unfold Initial; decide +kernel

/-- The initial values run, with the block preconditioner changed to AMG for the second block. -/
example : (match calls world decls init [.set "Preconditioners.Outer.Type".toList "BlockPreconditioner2".toList,
      .set "Preconditioners.BlockPreconditioner2.Block1.Type".toList "BlockAMG".toList] with
    | .ok y => decide (configure prog true flags y = .ok ⟨.bdf2, some .none, .interface, .abstract, .spherical, .none,
        .blocks ⟨.ilu, .ilu⟩ ⟨.blockAMG, .amg⟩ true 0 none, some ⟨.gmres, .damped, some .classical⟩, .none⟩)
    | _ => false) = true := by decide +kernel

theorem gmg_accepted : ∃ y, calls world decls init [.set "Preconditioners.Outer.Type".toList "GMG".toList] = .ok y ∧ outer y = "GMG".toList := by
  have H : (match calls world decls init [.set "Preconditioners.Outer.Type".toList "GMG".toList] with
    | .ok y => decide (outer y = "GMG".toList) | _ => false) = true := by decide +kernel
  cases h : calls world decls init [.set "Preconditioners.Outer.Type".toList "GMG".toList] with
  | ok y => rw [h] at H; exact ⟨y, rfl, of_decide_eq_true H⟩
  | exc e => rw [h] at H; cases H
  | ub => rw [h] at H; cases H

/-- Multigrid is offered but never runs, in no program and with no other parameters. -/
theorem C131_violated : ∃ (w : World) (cs : List Call) (y : Vals), calls w decls init cs = .ok y ∧
    ∀ b new f, configure b new f y = .exc .assertThrow := by
  obtain ⟨y, hy, ho⟩ := gmg_accepted
  refine ⟨world, _, y, hy, fun b new f => (C131_partial world init y init_initial _ hy b new f).2 fun hr => hr.outer.1 ho⟩

end Ex131

end Verif.Props
