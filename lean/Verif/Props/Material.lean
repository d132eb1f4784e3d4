import Verif.Model.Material
import Verif.Model.FreeEnergy
import Verif.Spec.Material
import Verif.Props.Numerics
import Mathlib.Data.List.TakeWhile
import Mathlib.Tactic.FieldSimp
import Mathlib.Tactic.Ring
import Mathlib.Tactic.Linarith
import Mathlib.Tactic.NormNum
import Mathlib.Tactic.Positivity
import Mathlib.Data.Fin.VecNotation
import Mathlib.Algebra.Order.Ring.Rat
import Mathlib.Algebra.Field.Rat
/-! # Material data in units and in time: C126 -/
namespace Verif.Props
open Verif Material Verif.Material.Spec

section units

private theorem factor_pos (u : Arrhenius) : 0 < factor u := by cases u <;> norm_num [factor]

/-- units of the data -/
noncomputable def unitsOf (d : Material.Data) : Units := ⟨d.ls, d.ts, d.es⟩

/-- at a positive temperature every mobility is the physical one measured in the units chosen: diffusion in
length^5/(time energy), the grain boundary in length^3/(time energy), where the physical width of the interface is
`width * ls` -/
theorem C126_units (d : Material.Data) (k T : ℝ) (hk : 0 < k) (hT : 0 < T) (hu : (unitsOf d).Proper)
    (hw : 0 < d.width) : ∃ c, coefficients d k T = some c ∧
      Measures (unitsOf d) 5 (-1) (-1) (mobility d.omega d.vol.D0 d.vol.Q k T) c.Mvol ∧
      Measures (unitsOf d) 5 (-1) (-1) (mobility d.omega d.vap.D0 d.vap.Q k T) c.Mvap ∧
      Measures (unitsOf d) 5 (-1) (-1) (mobility d.omega d.surf.D0 d.surf.Q k T) c.Msurf ∧
      Measures (unitsOf d) 5 (-1) (-1) (mobility d.omega d.gb.D0 d.gb.Q k T) c.Mgb ∧
      Measures (unitsOf d) 3 (-1) (-1) (boundaryMobility d.gbMob.D0 d.gbMob.Q k T (d.width * d.ls)) c.L := by
  obtain ⟨h1, h2, h3⟩ := hu
  simp only [unitsOf] at h1 h2 h3
  have hl : d.ls ≠ 0 := h1.ne'
  have ht : d.ts ≠ 0 := h2.ne'
  have he : d.es ≠ 0 := h3.ne'
  have hkT : k * T ≠ 0 := (mul_pos hk hT).ne'
  have hw' : d.width ≠ 0 := hw.ne'
  have hd : ∀ m : Mechanism, ∃ x, diffusion d k m T = some x ∧
      Measures (unitsOf d) 5 (-1) (-1) (mobility d.omega m.D0 m.Q k T) x := by
    intro m
    refine ⟨_, by unfold diffusion; rw [if_neg (by simp [hl, hk.ne', hT.ne'])], ?_⟩
    unfold Measures mobility arrhenius unitsOf
    simp only [zpow_neg, zpow_one, neg_div]
    rw [show ((d.ls : ℝ) ^ (5 : ℤ)) = d.ls ^ 5 from by norm_cast]
    field_simp
  have hg : ∃ x, gbMobility d k d.gbMob T = some x ∧
      Measures (unitsOf d) 3 (-1) (-1) (boundaryMobility d.gbMob.D0 d.gbMob.Q k T (d.width * d.ls)) x := by
    refine ⟨_, by unfold gbMobility; rw [if_neg (by simp [hl, hk.ne', hT.ne', hw'])], ?_⟩
    unfold Measures boundaryMobility arrhenius unitsOf
    simp only [zpow_neg, zpow_one, neg_div]
    rw [show ((d.ls : ℝ) ^ (3 : ℤ)) = d.ls ^ 3 from by norm_cast]
    field_simp
  obtain ⟨a, ha, ha'⟩ := hd d.vol
  obtain ⟨b, hb, hb'⟩ := hd d.vap
  obtain ⟨c, hc, hc'⟩ := hd d.surf
  obtain ⟨e, he1, he'⟩ := hd d.gb
  obtain ⟨l, hl1, hl'⟩ := hg
  refine ⟨⟨a, b, c, e, l⟩, ?_, ha', hb', hc', he', hl'⟩
  unfold coefficients
  rw [ha, hb, hc, he1, hl1]
  rfl

/-- the energies of the realistic material are measured in the same units: the gradient coefficients in energy/length,
the coefficients of the free energy in energy/length^3 -/
theorem C126_energies (s g w : ℝ) (u : Units) (hu : u.Proper) (hw : 0 < w) :
    Measures u (-1) 0 1 (3 / 4 * (2 * s - g) * (w * u.length))
      (FreeEnergy.computeEnergyParams s g w u.length u.energy).kappaC ∧
    Measures u (-1) 0 1 (3 / 4 * g * (w * u.length))
      (FreeEnergy.computeEnergyParams s g w u.length u.energy).kappaP ∧
    Measures u (-3) 0 1 ((12 * s - 7 * g) / (w * u.length))
      (FreeEnergy.computeEnergyParams s g w u.length u.energy).A ∧
    Measures u (-3) 0 1 (g / (w * u.length)) (FreeEnergy.computeEnergyParams s g w u.length u.energy).B := by
  obtain ⟨h1, h2, h3⟩ := hu
  have hl := h1.ne'
  have he := h3.ne'
  have hw' := hw.ne'
  unfold FreeEnergy.computeEnergyParams Measures
  simp only [zpow_neg, zpow_one, zpow_zero]
  rw [show ((u.length : ℝ) ^ (3 : ℤ)) = u.length ^ 3 from by norm_cast]
  refine ⟨?_, ?_, ?_, ?_⟩ <;> field_simp

/-- rates computed with these coefficients do not depend on the units of length and energy and are proportional to the
unit of time: with the mobility `L` and the coefficient `B` of the same physical boundary -/
theorem C126_rates (u : Units) (hu : u.Proper) (l b L B : ℝ) (h1 : Measures u 3 (-1) (-1) l L)
    (h2 : Measures u (-3) 0 1 b B) : L * B = u.time * (l * b) := by
  obtain ⟨p1, p2, p3⟩ := hu
  have hl := p1.ne'
  have ht := p2.ne'
  have he := p3.ne'
  unfold Measures at h1 h2
  rw [h1, h2]
  simp only [zpow_neg, zpow_one, zpow_zero]
  field_simp

/-- the temperature of a profile lies within the bounds of its points, for every time -/
theorem C126_temperature (table : List (ℝ × ℝ)) (hn : table ≠ []) (lo hi : ℝ) (hb : ∀ p ∈ table, lo ≤ p.2 ∧ p.2 ≤ hi)
    (x : ℝ) : ∃ T, Numerics.value false table x = .ok (some T) ∧ lo ≤ T ∧ T ≤ hi := by
  cases table with
  | nil => exact absurd rfl hn
  | cons p0 rest =>
    unfold Numerics.value
    dsimp only
    cases hl : ((p0 :: rest).takeWhile (fun p => decide (p.1 < x))).getLast? with
    | none => exact ⟨p0.2, rfl, hb p0 List.mem_cons_self⟩
    | some a =>
      have ham := List.mem_of_getLast? hl
      have ha : a.1 < x := by
        have := List.mem_takeWhile_imp ham
        exact of_decide_eq_true this
      have ha' := hb a (List.takeWhile_sublist _ |>.subset ham)
      cases hh : (p0 :: rest).dropWhile (fun p => decide (p.1 < x)) with
      | nil => exact ⟨a.2, rfl, ha'⟩
      | cons b r =>
        have hb1 : x ≤ b.1 := by
          have := List.head?_dropWhile_not (fun p : ℝ × ℝ => decide (p.1 < x)) (p0 :: rest)
          rw [hh] at this
          simpa using this
        have hb2 := hb b (List.dropWhile_sublist (fun p : ℝ × ℝ => decide (p.1 < x)) |>.subset (by rw [hh]; simp))
        have hab : a.1 < b.1 := lt_of_lt_of_le ha hb1
        refine ⟨_, by simp only [Numerics.line, if_neg hab.ne]; rfl, ?_⟩
        obtain ⟨t, ht⟩ : ∃ t, t = (x - a.1) / (b.1 - a.1) := ⟨_, rfl⟩
        have hpos : 0 < b.1 - a.1 := sub_pos.2 hab
        have e : (a.2 - b.2) / (a.1 - b.1) * x + (a.2 - (a.2 - b.2) / (a.1 - b.1) * a.1) =
            a.2 * (1 - t) + b.2 * t := by
          have h3 : a.1 - b.1 ≠ 0 := sub_ne_zero.2 hab.ne
          have h4 : b.1 - a.1 ≠ 0 := hpos.ne'
          rw [ht]
          field_simp
          ring
        rw [e]
        have t0 : 0 ≤ t := by rw [ht]; exact div_nonneg (by linarith) hpos.le
        have t1 : t ≤ 1 := by rw [ht, div_le_one hpos]; linarith
        constructor
        · nlinarith [mul_nonneg (sub_nonneg.2 ha'.1) (sub_nonneg.2 t1), mul_nonneg (sub_nonneg.2 hb2.1) t0]
        · nlinarith [mul_nonneg (sub_nonneg.2 ha'.2) (sub_nonneg.2 t1), mul_nonneg (sub_nonneg.2 hb2.2) t0]

/-- for a profile of positive temperatures the coefficients are defined at every time, and not negative for data that
are not negative -/
theorem C126_defined (d : Material.Data) (u : Arrhenius) (table : List (ℝ × ℝ)) (hn : table ≠ []) (lo hi : ℝ)
    (hlo : 0 < lo) (hb : ∀ p ∈ table, lo ≤ p.2 ∧ p.2 ≤ hi) (hu : (unitsOf d).Proper) (hw : 0 < d.width)
    (time : ℝ) : ∃ c, calculate d u table time = .ok (some c) ∧
      (0 ≤ d.omega → 0 ≤ d.vol.D0 → 0 ≤ c.Mvol) ∧ (0 ≤ d.omega → 0 ≤ d.vap.D0 → 0 ≤ c.Mvap) ∧
      (0 ≤ d.omega → 0 ≤ d.surf.D0 → 0 ≤ c.Msurf) ∧ (0 ≤ d.omega → 0 ≤ d.gb.D0 → 0 ≤ c.Mgb) ∧
      (0 ≤ d.gbMob.D0 → 0 ≤ c.L) := by
  obtain ⟨T, hT, h1, h2⟩ := C126_temperature table hn lo hi hb time
  have hTp : 0 < T := lt_of_lt_of_le hlo h1
  obtain ⟨c, hc, m1, m2, m3, m4, m5⟩ := C126_units d (factor u) T (factor_pos u) hTp hu hw
  refine ⟨c, ?_, ?_⟩
  · unfold calculate
    rw [hT, Res.ok_bind, Option.bind_some, hc]
  · obtain ⟨p1, p2, p3⟩ := hu
    have hk := factor_pos u
    have key : ∀ (a b e : ℤ) (q x : ℝ), Measures (unitsOf d) a b e q x → 0 ≤ q → 0 ≤ x := by
      intro a b e q x h hq
      unfold Measures at h
      have hp : 0 < (unitsOf d).length ^ a * (unitsOf d).time ^ b * (unitsOf d).energy ^ e :=
        mul_pos (mul_pos (zpow_pos p1 _) (zpow_pos p2 _)) (zpow_pos p3 _)
      rw [h] at hq
      exact nonneg_of_mul_nonneg_left hq hp
    have hm : ∀ m : Mechanism, 0 ≤ d.omega → 0 ≤ m.D0 → 0 ≤ mobility d.omega m.D0 m.Q (factor u) T := by
      intro m ho hD
      unfold mobility arrhenius
      positivity
    refine ⟨fun ho hD => key _ _ _ _ _ m1 (hm _ ho hD), fun ho hD => key _ _ _ _ _ m2 (hm _ ho hD),
      fun ho hD => key _ _ _ _ _ m3 (hm _ ho hD), fun ho hD => key _ _ _ _ _ m4 (hm _ ho hD), fun hD => ?_⟩
    refine key _ _ _ _ _ m5 ?_
    have : 0 < d.width * d.ls := mul_pos hw p1
    unfold boundaryMobility arrhenius
    positivity

/-- grain boundaries move faster at higher temperatures: strictly for a positive prefactor and activation energy -/
theorem C126_hotter (d : Material.Data) (k T T' : ℝ) (hk : 0 < k) (hT : 0 < T) (hTT : T < T')
    (hu : (unitsOf d).Proper) (hw : 0 < d.width) (hD : 0 < d.gbMob.D0) (hQ : 0 < d.gbMob.Q) :
    ∃ c c', coefficients d k T = some c ∧ coefficients d k T' = some c' ∧ c.L < c'.L := by
  obtain ⟨c, hc, -, -, -, -, m⟩ := C126_units d k T hk hT hu hw
  obtain ⟨c', hc', -, -, -, -, m'⟩ := C126_units d k T' hk (hT.trans hTT) hu hw
  refine ⟨c, c', hc, hc', ?_⟩
  obtain ⟨p1, p2, p3⟩ := hu
  unfold Measures at m m'
  have hp : 0 < (unitsOf d).length ^ (3 : ℤ) * (unitsOf d).time ^ (-1 : ℤ) * (unitsOf d).energy ^ (-1 : ℤ) :=
    mul_pos (mul_pos (zpow_pos p1 _) (zpow_pos p2 _)) (zpow_pos p3 _)
  refine lt_of_mul_lt_mul_right ?_ hp.le
  rw [← m, ← m']
  have hwl : 0 < d.width * d.ls := mul_pos hw p1
  unfold boundaryMobility arrhenius
  have hexp : Real.exp (-(d.gbMob.Q / (k * T))) < Real.exp (-(d.gbMob.Q / (k * T'))) := by
    apply Real.exp_lt_exp.2
    have := div_lt_div_of_pos_left hQ (mul_pos hk hT) (mul_lt_mul_of_pos_left hTT hk)
    linarith
  exact div_lt_div_of_pos_right (mul_lt_mul_of_pos_left (mul_lt_mul_of_pos_left hexp hD) (by norm_num)) hwl

/-- without points the temperature is zero and there are no coefficients -/
theorem C126_empty (d : Material.Data) (u : Arrhenius) (time : ℝ) : calculate d u [] time = .ok none := by
  unfold calculate
  rw [show Numerics.value false ([] : List (ℝ × ℝ)) time = .ok (some 0) from rfl, Res.ok_bind, Option.bind_some]
  unfold coefficients diffusion
  simp

end units

section loop
variable {K M : Type} [Field K] [LinearOrder K]

private theorem run_log (c : Conf K M) (P : Eval K M → Prop)
    (h : ∀ (st : LoopState K M) (o : Outcome K) (e : Eval K M), e ∈ (pass c st o).log → e ∈ st.log ∨ P e)
    (os : List (Outcome K)) (st : LoopState K M) (e : Eval K M) (he : e ∈ (run c st os).log) :
    e ∈ st.log ∨ P e := by
  induction os generalizing st with
  | nil => exact .inl he
  | cons o os ih =>
    rcases ih (pass c st o) he with h1 | h1
    · exact h st o e h1
    · exact .inr h1

private theorem pass_log (c : Conf K M) (st : LoopState K M) (o : Outcome K) (e : Eval K M)
    (he : e ∈ (pass c st o).log) : e ∈ st.log ∨
      e ∈ predictorEvals c.predictor st.t st.dt (c.provider (actualTime c.scheme st.t st.dt)) ∨
      e ∈ schemeEvals c.scheme st.t st.dt (c.provider (actualTime c.scheme st.t st.dt)) ∨
      e ∈ fluxEvals c.fluxes (st.t + st.dt) (c.provider (actualTime c.scheme st.t st.dt)) := by
  cases o <;> simp only [pass, List.mem_append] at he <;> tauto

private theorem predictor_purpose {p : Predictor} {t dt : K} {m : M} {e : Eval K M}
    (he : e ∈ predictorEvals p t dt m) : e.purpose = .predict := by
  unfold predictorEvals at he
  split at he
  · cases p <;> simp at he
    · rw [he]
    · rcases he with rfl | rfl <;> rfl
  · cases he

omit [Field K] [LinearOrder K] in
private theorem flux_eq {b : Bool} {t : K} {m : M} {e : Eval K M} (he : e ∈ fluxEvals b t m) :
    e = ⟨.fluxes, t, m⟩ := by
  cases b <;> simp [fluxEvals] at he
  exact he

/-- With an implicit scheme every run, with any number of failed and repeated steps, evaluates the equations and the
fluxes with the material of the time they belong to. The predictors are left out. -/
theorem C126_partial (c : Conf K M) (hs : c.scheme = .implicit) (t dt : K) (os : List (Outcome K)) (e : Eval K M)
    (he : e ∈ (run c (Material.start c t dt) os).log) (hp : e.purpose ≠ .predict) : OfTime c.provider e.time e.mat := by
  refine (run_log c (fun e => e.purpose ≠ .predict → OfTime c.provider e.time e.mat) ?_ os _ e he).elim (fun h => nomatch h) (fun h => h hp)
  · intro st o e he
    rcases pass_log c st o e he with h | h | h | h
    · exact .inl h
    · exact .inr (fun hn => absurd (predictor_purpose h) hn)
    · right
      intro _
      rw [hs] at h
      rw [List.mem_singleton.1 h]
      rfl
    · right
      intro _
      rw [flux_eq h, hs]
      rfl

/-- with the explicit scheme of Euler without stationary equations the equations are evaluated with the material of the
beginning of the step, which is their time -/
theorem C126_euler (c : Conf K M) (hs : c.scheme = .explicit Explicit.euler false) (t dt : K) (os : List (Outcome K))
    (e : Eval K M) (he : e ∈ (run c (Material.start c t dt) os).log) (hp : e.purpose = .solve) :
    OfTime c.provider e.time e.mat := by
  refine (run_log c (fun e => e.purpose = .solve → OfTime c.provider e.time e.mat) ?_ os _ e he).elim (fun h => nomatch h) (fun h => h hp)
  · intro st o e he
    rcases pass_log c st o e he with h | h | h | h
    · exact .inl h
    · exact .inr (fun hn => by rw [predictor_purpose h] at hn; cases hn)
    · right
      intro _
      rw [hs] at h
      have : e = ⟨.solve, st.t, c.provider st.t⟩ := by
        simpa [schemeEvals, stageTimes, Explicit.euler, actualTime] using h
      rw [this]
      rfl
    · right
      intro hn
      rw [flux_eq h] at hn
      cases hn

/-- every pass evaluates the equations: with an implicit scheme at the end of the step it tries, with an explicit one at
its beginning, and in both cases with the material of that time, whatever the material was before -/
theorem C126_pass (c : Conf K M) (st : LoopState K M) (o : Outcome K) :
    (c.scheme = .implicit → (⟨.solve, st.t + st.dt, c.provider (st.t + st.dt)⟩ : Eval K M) ∈ (pass c st o).log) ∧
    (∀ s l b, c.scheme = .explicit (s :: l) b →
      (⟨.solve, st.t, c.provider st.t⟩ : Eval K M) ∈ (pass c st o).log) := by
  have hmem : ∀ e, e ∈ schemeEvals c.scheme st.t st.dt (c.provider (actualTime c.scheme st.t st.dt)) →
      e ∈ (pass c st o).log := by
    intro e he
    cases o <;> simp [pass, he]
  constructor
  · intro hs
    refine hmem _ ?_
    rw [hs]
    exact List.mem_singleton.2 rfl
  · intro s l b hs
    refine hmem _ ?_
    rw [hs]
    unfold schemeEvals stageTimes
    refine List.mem_append_left _ (List.mem_map.2 ⟨st.t, ?_, rfl⟩)
    have key : ∀ (l : List (K × K)) (r : List K × K), st.t ∈ r.1 →
        st.t ∈ (l.foldl (fun (r : List K × K) s => (r.1 ++ [r.2], st.t + s.2 * st.dt)) r).1 := by
      intro l
      induction l with
      | nil => exact fun r h => h
      | cons a l ih => exact fun r h => ih _ (List.mem_append_left _ h)
    exact key l _ (List.mem_append_right _ (List.mem_singleton.2 rfl))

/-- steps that failed leave the time where it was, the others advance it by the step they tried -/
theorem C126_time (c : Conf K M) (st : LoopState K M) (o : Outcome K) :
    (pass c st o).t = match o with | .failed => st.t | _ => st.t + st.dt := by
  cases o <;> rfl

/-- if the material does not depend on the time all evaluations of all schemes and predictors are right -/
theorem C126_constant (c : Conf K M) (m : M) (hm : ∀ t, c.provider t = m) (t dt : K) (os : List (Outcome K))
    (e : Eval K M) (he : e ∈ (run c (Material.start c t dt) os).log) : OfTime c.provider e.time e.mat := by
  have hc : ∀ (l : List (Eval K M)), (∀ e ∈ l, e.mat = m) → ∀ e ∈ l, OfTime c.provider e.time e.mat := by
    intro l h e he
    unfold OfTime
    rw [h e he, hm]
  refine (run_log c (fun e => OfTime c.provider e.time e.mat) ?_ os _ e he).elim (fun h => nomatch h) (fun h => h)
  · intro st o e he
    rw [show OfTime c.provider e.time e.mat ↔ e.mat = m from by unfold OfTime; rw [hm]]
    rcases pass_log c st o e he with h | h | h | h
    · exact .inl h
    · right
      unfold predictorEvals at h
      rw [hm] at h
      split at h
      · cases hp : c.predictor <;> simp [hp] at h
        · rw [h]
        · rcases h with rfl | rfl <;> rfl
      · cases h
    · right
      rw [hm] at h
      unfold schemeEvals at h
      cases hsch : c.scheme with
      | implicit => rw [hsch] at h; rw [List.mem_singleton.1 h]
      | explicit stages b =>
        rw [hsch] at h
        rcases List.mem_append.1 h with h | h
        · obtain ⟨τ, -, rfl⟩ := List.mem_map.1 h
          rfl
        · cases b <;> simp at h
          rw [h]
    · right
      rw [flux_eq h, hm]

/-- with Runge-Kutta the stages at the middle and at the end of the step are evaluated with the material of its
beginning: wrong whenever the material has changed until then -/
theorem C126_stages_violated (c : Conf K M) (b : Bool) (hs : c.scheme = .explicit Explicit.rk4 b) (st : LoopState K M)
    (o : Outcome K) (h : c.provider (st.t + 1 / 2 * st.dt) ≠ c.provider st.t) :
    ∃ e ∈ (pass c st o).log, e.purpose = .solve ∧ e.time = st.t + 1 / 2 * st.dt ∧
      ¬ OfTime c.provider e.time e.mat := by
  refine ⟨⟨.solve, st.t + 1 / 2 * st.dt, c.provider st.t⟩, ?_, rfl, rfl, fun hm => h hm.symm⟩
  have : (⟨.solve, st.t + 1 / 2 * st.dt, c.provider st.t⟩ : Eval K M) ∈
      schemeEvals c.scheme st.t st.dt (c.provider (actualTime c.scheme st.t st.dt)) := by
    rw [hs]
    simp [schemeEvals, stageTimes, Explicit.rk4, actualTime]
  cases o <;> simp only [pass, List.mem_append, this, true_or, or_true]

/-- the fluxes after an explicit step are those of the material at its beginning -/
theorem C126_fluxes_violated (c : Conf K M) (stages : List (K × K)) (b : Bool) (hs : c.scheme = .explicit stages b)
    (hf : c.fluxes = true) (st : LoopState K M) (dt : K) (h : c.provider (st.t + st.dt) ≠ c.provider st.t) :
    ∃ e ∈ (pass c st (.solved dt)).log, e.purpose = .fluxes ∧ e.time = (pass c st (.solved dt)).t ∧
      ¬ OfTime c.provider e.time e.mat := by
  refine ⟨⟨.fluxes, st.t + st.dt, c.provider st.t⟩, ?_, rfl, rfl, fun hm => h hm.symm⟩
  simp [pass, hs, hf, fluxEvals, actualTime]

/-- the predictors of an implicit scheme evaluate the rate at the beginning of the step with the material of its end -/
theorem C126_predictor_violated (c : Conf K M) (hs : c.scheme = .implicit) (hp : c.predictor = .euler)
    (st : LoopState K M) (ht : 0 < st.t) (o : Outcome K) (h : c.provider (st.t + st.dt) ≠ c.provider st.t) :
    ∃ e ∈ (pass c st o).log, e.purpose = .predict ∧ e.time = st.t ∧ ¬ OfTime c.provider e.time e.mat := by
  refine ⟨⟨.predict, st.t, c.provider (st.t + st.dt)⟩, ?_, rfl, rfl, h⟩
  have : (⟨.predict, st.t, c.provider (st.t + st.dt)⟩ : Eval K M) ∈
      predictorEvals c.predictor st.t st.dt (c.provider (actualTime c.scheme st.t st.dt)) := by
    rw [hs, hp]
    simp [predictorEvals, ht, actualTime]
  cases o <;> simp only [pass, List.mem_append, this, true_or, or_true]

end loop

/-- consequence: for a rate that is the time itself the scheme of order four with the frozen material gives nothing in
the first step, whatever its size; with the material of the stages it is exact -/
theorem C126_order_violated (h : ℚ) (hh : h ≠ 0) :
    (Explicit.makeStep (n := 1) (K := ℚ) (V := ℚ)
      { timeDep := fun _ => true, res := frozen (fun t => t) 0 (fun m _ _ => -m), minv := id } false Explicit.rk4 0 h
        (fun _ => 0)).1 0 = 0 ∧
    (Explicit.makeStep (n := 1) (K := ℚ) (V := ℚ)
      { timeDep := fun _ => true, res := fun t _ _ => -t, minv := id } false Explicit.rk4 0 h (fun _ => 0)).1 0 =
      h ^ 2 / 2 ∧ h ^ 2 / 2 ≠ 0 := by
  refine ⟨?_, ?_, by positivity⟩
  · simp [Explicit.makeStep, Explicit.rk4, Explicit.stage, Explicit.blockStep, Explicit.hasStationary, frozen]
  · simp [Explicit.makeStep, Explicit.rk4, Explicit.stage, Explicit.blockStep, Explicit.hasStationary]
    ring

namespace Ex126
/-- one physical mechanism, interface of width two, other units than the physical ones -/
noncomputable def data : Material.Data :=
  { omega := 1, vol := ⟨1, 1⟩, vap := ⟨1, 1⟩, surf := ⟨1, 1⟩, gb := ⟨1, 1⟩, gbMob := ⟨1, 1⟩, width := 2, ts := 3, ls := 2,
    es := 5 }
theorem data_proper : (unitsOf data).Proper := by
  refine ⟨?_, ?_, ?_⟩ <;> norm_num [unitsOf, data]
example : ∃ c, coefficients data (factor .boltzmann) 1000 = some c ∧
    Measures (unitsOf data) 5 (-1) (-1) (mobility 1 1 1 (factor .boltzmann) 1000) c.Mvol := by
  obtain ⟨c, h, hv, -⟩ := C126_units data (factor .boltzmann) 1000 (by norm_num [factor]) (by norm_num) data_proper
    (by norm_num [data])
  exact ⟨c, h, hv⟩
/-- a profile that rises from 1000 to 2000 -/
def ramp : List (ℝ × ℝ) := [(0, 1000), (1, 2000)]
theorem ramp_changes : calculate data .boltzmann ramp 1 ≠ calculate data .boltzmann ramp 0 := by
  obtain ⟨c, c', h, h', hl⟩ := C126_hotter data (factor .boltzmann) 1000 2000 (by norm_num [factor]) (by norm_num)
    (by norm_num) data_proper (by norm_num [data]) (by norm_num [data]) (by norm_num [data])
  have e0 : Numerics.value false ramp 0 = .ok (some 1000) := by norm_num [Numerics.value, ramp]
  have e1 : Numerics.value false ramp 1 = .ok (some 2000) := by norm_num [Numerics.value, ramp, Numerics.line]
  unfold calculate
  rw [e0, e1, Res.ok_bind, Res.ok_bind, Option.bind_some, Option.bind_some, h, h']
  intro hc
  cases hc
  exact lt_irrefl _ hl
example : ∃ c, calculate data .gas ramp 7 = .ok (some c) ∧ 0 ≤ c.L := by
  obtain ⟨c, h, -, -, -, -, hL⟩ := C126_defined data .gas ramp (by simp [ramp]) 1000 2000 (by norm_num)
    (by intro p hp; simp [ramp] at hp; rcases hp with rfl | rfl <;> norm_num) data_proper (by norm_num [data]) 7
  exact ⟨c, h, hL (by norm_num [data])⟩
noncomputable def confRamp : Conf ℝ (Res (Option (Mobility.Coeff ℝ))) :=
  { scheme := .explicit Explicit.euler false, predictor := .none, fluxes := true,
    provider := calculate data .boltzmann ramp }
/-- the material of the ramp is wrong for fluxes after a step from 0 to 1 -/
example : ∃ e ∈ (pass confRamp ⟨0, 1, calculate data .boltzmann ramp 0, []⟩ (.solved 1)).log,
    ¬ OfTime (calculate data .boltzmann ramp) e.time e.mat := by
  obtain ⟨e, h, -, -, hn⟩ := C126_fluxes_violated confRamp Explicit.euler false rfl rfl
    ⟨0, 1, calculate data .boltzmann ramp 0, []⟩ 1 (by simpa [confRamp] using ramp_changes)
  exact ⟨e, h, hn⟩
/-- an implicit run with the material equal to the time: a failed step, its repetition, a step with failed fluxes -/
def conf : Conf ℚ ℚ := { scheme := .implicit, predictor := .euler, fluxes := true, provider := id }
example : (run conf (Material.start conf 1 1) [.failed, .solved 2, .fluxesFailed 4]).log =
    [⟨.predict, 1, 2⟩, ⟨.solve, 2, 2⟩, ⟨.predict, 1, 3 / 2⟩, ⟨.solve, 3 / 2, 3 / 2⟩, ⟨.fluxes, 3 / 2, 3 / 2⟩,
      ⟨.predict, 3 / 2, 7 / 2⟩, ⟨.solve, 7 / 2, 7 / 2⟩, ⟨.fluxes, 7 / 2, 7 / 2⟩] := by decide +kernel
def confRk : Conf ℚ ℚ := { scheme := .explicit Explicit.rk4 true, predictor := .none, fluxes := false, provider := id }
example : (run confRk (Material.start confRk 0 2) [.solved 2]).log =
    [⟨.solve, 0, 0⟩, ⟨.solve, 1, 0⟩, ⟨.solve, 1, 0⟩, ⟨.solve, 2, 0⟩, ⟨.algebraic, 2, 0⟩] := by decide +kernel
end Ex126

end Verif.Props
