import Verif.Lemmas.OutputFields
import Mathlib.Algebra.BigOperators.Ring.Finset
import Mathlib.Algebra.Field.Rat
/-!
# C114: fields in the output of the operators
-/
namespace Verif.Props
open Verif.OutputFields

section
private theorem sinteringCount (n dim : Nat) (fields : List String) :
    (entriesMask (sinteringEntries n dim) fields).2 = (requested (sinteringTable n dim) fields).length := by
  rw [entriesMask_snd, requested_sel]
  simp only [sinteringEntries, sinteringTable, List.flatMap_cons, List.flatMap_nil, List.map_cons, List.map_nil,
    List.sum_cons, List.sum_nil, List.length_append, List.length_nil, sel_length, List.length_cons,
    List.length_map, List.length_range]
  have hp : ∀ f : Nat → Nat → String × Quantity, (upper n f).length = n * (n - 1) / 2 := fun f => by
    rw [← List.length_map (f := id), map_pairs, pairs_length]
  rw [hp]
  generalize n * (n - 1) / 2 = k
  simp only [show 0 + 1 = 1 from rfl, show n + n + k + 1 = 1 + 2 * n + k by omega,
    show n + 1 + 1 = 2 + n by omega, show dim + dim + dim + dim = 4 * dim by omega]

private theorem sinteringMask (n dim : Nat) (fields : List String) :
    let m := (entriesMask (sinteringEntries n dim) fields).1
    m 0 = fields.contains "bnds" ∧ m 1 = fields.contains "gb" ∧ m 2 = fields.contains "d2f" ∧
    m 3 = fields.contains "M" ∧ m 4 = fields.contains "dM" ∧ m 5 = fields.contains "kappa" ∧
    m 6 = fields.contains "L" ∧ m 7 = fields.contains "energy" ∧ m 8 = fields.contains "flux" := by
  simp [entriesMask_fst, sinteringEntries]

private theorem sinteringSel (n dim : Nat) (fields : List String) :
    ∃ t0 t1 t2 t3 t4 t5 t6 t7 t8 : List (String × Quantity),
    (t0.map Prod.snd = [.bnds] ∧ t1.map Prod.snd = [.gb] ∧ t2.map Prod.snd = d2fValues n ∧
      t3.map Prod.snd = [.mobility] ∧ t4.map Prod.snd = dMValues n ∧ t5.map Prod.snd = [.kappaC, .kappaP] ∧
      t6.map Prod.snd = [.mobilityL] ∧ t7.map Prod.snd = [.energy, .dfDc] ∧ t8.map Prod.snd = fluxValues dim) ∧
    requested (sinteringTable n dim) fields = sel (fields.contains "bnds") t0 ++ sel (fields.contains "gb") t1 ++
      sel (fields.contains "d2f") t2 ++ sel (fields.contains "M") t3 ++ sel (fields.contains "dM") t4 ++
      sel (fields.contains "kappa") t5 ++ sel (fields.contains "L") t6 ++ sel (fields.contains "energy") t7 ++
      sel (fields.contains "flux") t8 ∧
    sinteringNames n dim (entriesMask (sinteringEntries n dim) fields).1 =
      (requested (sinteringTable n dim) fields).map Prod.fst := by
  obtain ⟨m0, m1, m2, m3, m4, m5, m6, m7, m8⟩ := sinteringMask n dim fields
  have hr := requested_sel (sinteringTable n dim) fields
  generalize requested (sinteringTable n dim) fields = R at hr ⊢
  simp only [sinteringTable, List.flatMap_cons, List.flatMap_nil, List.append_nil, ← List.append_assoc] at hr
  refine ⟨_, _, _, _, _, _, _, _, _, ?_, hr, ?_⟩
  · simp [d2fValues, dMValues, fluxValues, map_pairs, Function.comp_def]
  · rw [hr]
    unfold sinteringNames
    rw [m0, m1, m2, m3, m4, m5, m6, m7, m8]
    simp only [List.map_append]
    refine congr (congrArg _ ?_) ?_
    · refine congr (congrArg _ ?_) (part_eq _ _ _ rfl)
      refine congr (congrArg _ ?_) (part_eq _ _ _ rfl)
      refine congr (congrArg _ ?_) (part_eq _ _ _ rfl)
      refine congr (congrArg _ ?_) (part_eq _ _ _ (by simp [Function.comp_def]))
      refine congr (congrArg _ ?_) (part_eq _ _ _ rfl)
      refine congr (congrArg _ ?_) (part_eq _ _ _ (by simp [map_pairs, Function.comp_def]))
      exact congr (congrArg _ (part_eq _ _ _ rfl)) (part_eq _ _ _ rfl)
    · exact part_eq _ _ _ (by simp [Function.comp_def, List.map_const', List.flatMap_cons])

private theorem sinteringPoint_ok (tens : Bool) (n dim : Nat) (fields : List String)
    (ht : tens = true → "M" ∉ fields ∧ "dM" ∉ fields) (t : List (Option Quantity))
    (hl : t.length = (requested (sinteringTable n dim) fields).length) :
    sinteringPoint tens n dim (entriesMask (sinteringEntries n dim) fields).1 t =
      .ok ((requested (sinteringTable n dim) fields).map fun e => some e.2) := by
  obtain ⟨m0, m1, m2, m3, m4, m5, m6, m7, m8⟩ := sinteringMask n dim fields
  obtain ⟨t0, t1, t2, t3, t4, t5, t6, t7, t8, ⟨v0, v1, v2, v3, v4, v5, v6, v7, v8⟩, hr, -⟩ :=
    sinteringSel n dim fields
  have hv := congrArg (List.map Prod.snd) hr
  simp only [List.map_append, sel_map, v0, v1, v2, v3, v4, v5, v6, v7, v8] at hv
  have hl' : ((requested (sinteringTable n dim) fields).map Prod.snd).length = t.length := by simp [hl]
  rw [show (fun e : String × Quantity => some e.2) = some ∘ Prod.snd from rfl, ← List.map_map]
  rw [hv] at hl' ⊢
  have hmob : ∀ {s : Temp} {vs : List Quantity}, Filled t.length s vs →
      vs.length + (sel (fields.contains "M") [Quantity.mobility]).length +
        (sel (fields.contains "dM") (dMValues n)).length ≤ t.length →
      ∃ s', mobilityBlock tens (entriesMask (sinteringEntries n dim) fields).1 n s = .ok s' ∧
        Filled t.length s' (vs ++ sel (fields.contains "M") [Quantity.mobility] ++
          sel (fields.contains "dM") (dMValues n)) := by
    intro s vs h hle
    unfold mobilityBlock
    rw [m3, m4]
    cases tens
    · obtain ⟨s1, e1, h1⟩ := block_ok (fields.contains "M") [Quantity.mobility] h (by omega)
      obtain ⟨s2, e2, h2⟩ := block_ok (fields.contains "dM") (dMValues n) h1
        (by rw [List.length_append]; omega)
      refine ⟨s2, ?_, h2⟩
      rw [if_neg (by simp), e1]; exact e2
    · obtain ⟨hM, hdM⟩ := ht rfl
      have a : fields.contains "M" = false := by simpa using hM
      have b : fields.contains "dM" = false := by simpa using hdM
      refine ⟨s, by rw [a, b]; rfl, ?_⟩
      rw [a, b]; simpa [sel] using h
  unfold sinteringPoint
  rw [m0, m1, m2, m5, m6, m7, m8]
  simp only [List.length_append] at hl'
  obtain ⟨s0, e0, h0⟩ := block_ok (fields.contains "bnds") [Quantity.bnds] (filled_start t)
    (by simp only [List.length_nil]; omega)
  rw [List.nil_append] at h0
  obtain ⟨s1, e1, h1⟩ := block_ok (fields.contains "gb") [Quantity.gb] h0 (by omega)
  obtain ⟨s2, e2, h2⟩ := block_ok (fields.contains "d2f") (d2fValues n) h1
    (by simp only [List.length_append]; omega)
  obtain ⟨s3, e3, h3⟩ := hmob h2 (by simp only [List.length_append]; omega)
  obtain ⟨s5, e5, h5⟩ := block_ok (fields.contains "kappa") [Quantity.kappaC, Quantity.kappaP] h3
    (by simp only [List.length_append]; omega)
  obtain ⟨s6, e6, h6⟩ := block_ok (fields.contains "L") [Quantity.mobilityL] h5
    (by simp only [List.length_append]; omega)
  obtain ⟨s7, e7, h7⟩ := block_ok (fields.contains "energy") [Quantity.energy, Quantity.dfDc] h6
    (by simp only [List.length_append]; omega)
  obtain ⟨s8, e8, h8⟩ := fluxBlock_ok (fields.contains "flux") dim h7
    (by simp only [List.length_append]; omega)
  rw [e0, Res.ok_bind, e1, Res.ok_bind, e2, Res.ok_bind, e3, Res.ok_bind, e5, Res.ok_bind, e6, Res.ok_bind, e7,
    Res.ok_bind, e8, Res.ok_bind]
  exact congrArg Res.ok (filled_end h8 (by simp only [List.length_append]; omega))

/-- C114 (sintering): for every number of grains, dimension, number of quadrature points and set of requested
fields the output consists of exactly the components of the requested fields, in the order of the table, and
under every name is the quantity that belongs to the name — at every quadrature point; nothing is written behind
the end of a vector and nothing is left unwritten. -/
theorem C114_partial (tens : Bool) (n dim nq : Nat) (fields : List String)
    (ht : tens = true → "M" ∉ fields ∧ "dM" ∉ fields) :
    sinteringFields tens n dim nq fields = .ok (expected nq (requested (sinteringTable n dim) fields)) := by
  obtain ⟨_, _, _, _, _, _, _, _, _, _, _, hs⟩ := sinteringSel n dim fields
  exact frame_ok (sinteringCount n dim fields) (fun t hl => sinteringPoint_ok tens n dim fields ht t hl) hs

/-- with a mobility that is a tensor the fields `M` and `dM` are refused with an exception -/
theorem C114_tensorial (n dim nq : Nat) (fields : List String) (hq : 0 < nq)
    (h : "M" ∈ fields ∨ "dM" ∈ fields) :
    sinteringFields true n dim nq fields = .exc .assertThrow := by
  obtain ⟨m0, m1, m2, m3, m4, m5, m6, m7, m8⟩ := sinteringMask n dim fields
  obtain ⟨t0, t1, t2, t3, t4, t5, t6, t7, t8, ⟨v0, v1, v2, v3, v4, v5, v6, v7, v8⟩, hr, -⟩ :=
    sinteringSel n dim fields
  have hc := sinteringCount n dim fields
  have l0 : t0.length = 1 := by have := congrArg List.length v0; simpa using this
  have l1 : t1.length = 1 := by have := congrArg List.length v1; simpa using this
  have l2 : t2.length = (d2fValues n).length := by have := congrArg List.length v2; simpa using this
  have l3 : t3.length = 1 := by have := congrArg List.length v3; simpa using this
  have l4 : t4.length = n + 2 := by have := congrArg List.length v4; simpa [dMValues] using this
  rw [hr] at hc
  simp only [List.length_append, sel_length, l0, l1, l2, l3, l4] at hc
  have hpos : (entriesMask (sinteringEntries n dim) fields).2 ≠ 0 := by
    rcases h with h | h
    · rw [if_pos (show fields.contains "M" = true by simpa using h)] at hc; omega
    · rw [if_pos (show fields.contains "dM" = true by simpa using h)] at hc; omega
  obtain ⟨q, rfl⟩ : ∃ q, nq = q + 1 := ⟨nq - 1, by omega⟩
  unfold sinteringFields frame
  dsimp only
  rw [if_neg hpos]
  have key : ∀ t : List (Option Quantity), t.length = (entriesMask (sinteringEntries n dim) fields).2 →
      sinteringPoint true n dim (entriesMask (sinteringEntries n dim) fields).1 t = .exc .assertThrow := by
    intro t hl
    unfold sinteringPoint
    rw [m0, m1, m2]
    obtain ⟨s0, e0, h0⟩ := block_ok (fields.contains "bnds") [Quantity.bnds] (filled_start t)
      (by simp only [sel_length, List.length_nil, List.length_cons, Nat.zero_add]; omega)
    rw [List.nil_append] at h0
    obtain ⟨s1, e1, h1⟩ := block_ok (fields.contains "gb") [Quantity.gb] h0
      (by simp only [sel_length, List.length_nil, List.length_cons, Nat.zero_add]; omega)
    obtain ⟨s2, e2, h2⟩ := block_ok (fields.contains "d2f") (d2fValues n) h1
      (by simp only [sel_length, List.length_append, List.length_nil, List.length_cons, Nat.zero_add]; omega)
    rw [e0, Res.ok_bind, e1, Res.ok_bind, e2, Res.ok_bind]
    unfold mobilityBlock
    rw [if_pos rfl, m3, m4, if_pos (by simpa using h)]
    rfl
  unfold runPoints
  rw [key _ (by simp)]
  rfl

end

/-! ## Velocities -/

private theorem velocityLoop {n dim : Nat} (has : Nat → Bool) {t : List (Option Quantity)} (h : t.length = n * dim) :
    ∀ k ≤ n, ∃ t', (List.range k).foldlM (velocityStep dim has) t = .ok t' ∧ t'.length = t.length ∧
      ∀ x, t'[x]? = if x < k * dim ∧ has (x / dim) = true then some (some (.velocity (x / dim) (x % dim))) else t[x]?
  | 0, _ => ⟨t, rfl, rfl, fun x => by rw [if_neg (by simp)]⟩
  | k + 1, hk => by
    obtain ⟨t1, e1, n1, p1⟩ := velocityLoop has h k (by omega)
    rw [List.range_succ, List.foldlM_append, e1, Res.ok_bind, List.foldlM_cons]
    have hmul : (k + 1) * dim = k * dim + dim := Nat.succ_mul k dim
    have hle : (k + 1) * dim ≤ n * dim := Nat.mul_le_mul_right dim hk
    have hin : ∀ x, k * dim ≤ x → x < k * dim + dim → x / dim = k ∧ x % dim = x - k * dim := by
      intro x h1 h2
      obtain ⟨y, rfl⟩ : ∃ y, x = k * dim + y := ⟨x - k * dim, by omega⟩
      constructor
      · rw [Nat.mul_comm, Nat.mul_add_div (by omega), Nat.div_eq_of_lt (by omega), Nat.add_zero]
      · rw [Nat.mul_comm, Nat.mul_add_mod, Nat.mod_eq_of_lt (by omega)]; rw [Nat.mul_comm]; omega
    by_cases hh : has k = true
    · obtain ⟨t2, e2, n2, p2⟩ := setRange_ok (k * dim) (fun d => Quantity.velocity k d) dim t1 (by omega)
      refine ⟨t2, ?_, by omega, fun x => ?_⟩
      · unfold velocityStep; rw [if_pos hh, e2]; rfl
      · rw [p2, p1]
        by_cases hx : k * dim ≤ x ∧ x < k * dim + dim
        · obtain ⟨a, b⟩ := hin x hx.1 hx.2
          rw [if_pos hx, a, b, if_pos ⟨by omega, hh⟩]
        · rw [if_neg hx]
          by_cases hy : x < k * dim ∧ has (x / dim) = true
          · rw [if_pos hy, if_pos ⟨by omega, hy.2⟩]
          · rw [if_neg hy, if_neg]
            rintro ⟨g1, g2⟩
            exact hy ⟨by omega, g2⟩
    · refine ⟨t1, ?_, n1, fun x => ?_⟩
      · unfold velocityStep; rw [if_neg hh]; rfl
      · rw [p1]
        by_cases hy : x < k * dim ∧ has (x / dim) = true
        · rw [if_pos hy, if_pos ⟨by omega, hy.2⟩]
        · rw [if_neg hy, if_neg]
          rintro ⟨g1, g2⟩
          by_cases hx : k * dim ≤ x
          · rw [(hin x hx (by omega)).1] at g2; exact hh g2
          · exact hy ⟨by omega, g2⟩

/-- C114 (sintering with advection): fields of the parent followed by the velocities -/
theorem C114_generic (tens enabled : Bool) (n dim nq : Nat) (has : Nat → Bool) (fields : List String)
    (ht : tens = true → "M" ∉ fields ∧ "dM" ∉ fields) :
    genericFields tens enabled n dim nq has fields =
      .ok (expected nq (requested (sinteringTable n dim ++ velocityTable enabled has n dim) fields)) := by
  have hv : velocityFields enabled n dim nq has fields =
      .ok (expected nq (requested (velocityTable enabled has n dim) fields)) := by
    have hm : (entriesMask [("vel", 0, n * dim)] fields).1 0 = fields.contains "vel" := by
      simp [entriesMask_fst]
    have hr : requested (velocityTable enabled has n dim) fields = sel (fields.contains "vel")
        ((List.range n).flatMap fun ig => (List.range dim).map fun d =>
          ("vel" ++ toString ig, if enabled && has ig then Quantity.velocity ig d else .zero)) := by
      rw [requested_sel]; simp [velocityTable]
    have hlen : (sel (fields.contains "vel")
        ((List.range n).flatMap fun ig => (List.range dim).map fun d =>
          ("vel" ++ toString ig, if enabled && has ig then Quantity.velocity ig d else .zero))).length =
        if fields.contains "vel" then n * dim else 0 := by
      rw [sel_length, flat_range dim (fun ig d =>
        ("vel" ++ toString ig, if (enabled && has ig) = true then Quantity.velocity ig d else .zero)) n]
      simp
    rw [hr]
    refine frame_ok ?_ ?_ ?_
    · rw [hlen, entriesMask_snd]; simp
    · intro t hl
      rw [hlen] at hl
      unfold velocityPoint
      dsimp only
      rw [hm]
      by_cases hc : fields.contains "vel" = true
      · rw [if_pos hc] at hl
        rw [hc]
        simp only [sel, if_true, Bool.true_and]
        rw [flat_range dim (fun ig d =>
          ("vel" ++ toString ig, if (enabled && has ig) = true then Quantity.velocity ig d else .zero)) n]
        cases enabled
        · simp only [Bool.false_eq_true, if_false, Bool.false_and, List.map_map, Function.comp_def]
          congr 1
          apply List.ext_getElem (by simp [hl])
          intro i h1 h2
          simp
        · rw [if_pos rfl]
          obtain ⟨t', e, hn, hp⟩ := velocityLoop (n := n) (dim := dim) has
            (t := t.map fun _ => some Quantity.zero) (by simp [hl]) n (Nat.le_refl n)
          rw [e]
          congr 1
          apply List.ext_getElem?
          intro x
          rw [hp]
          by_cases hx : x < n * dim
          · simp only [hx, true_and, Bool.true_and, List.getElem?_map, List.getElem?_range hx, Option.map_some]
            rw [List.getElem?_eq_getElem (by omega)]
            by_cases hh : has (x / dim) = true <;> simp [hh]
          · rw [if_neg (by simp [hx])]
            rw [List.getElem?_eq_none (by simp; omega), List.getElem?_eq_none (by simp; omega)]
      · rw [if_neg hc] at hl
        have hc' : fields.contains "vel" = false := by simpa using hc
        rw [hc']
        have : t = [] := List.eq_nil_of_length_eq_zero hl
        subst this
        rfl
    · unfold velocityNames
      rw [hm]
      refine part_eq _ _ _ ?_
      simp [List.map_flatMap, Function.comp_def, List.map_const']
  unfold genericFields
  rw [C114_partial tens n dim nq fields ht, Res.ok_bind, hv]
  show Res.ok _ = Res.ok _
  simp [requested, expected]

/-! ## Grain growth -/

private theorem growthMask (n : Nat) (fields : List String) :
    let m := (entriesMask (growthEntries n) fields).1
    m 0 = fields.contains "bnds" ∧ m 1 = fields.contains "gb" ∧ m 2 = fields.contains "energy" ∧ m 3 = false ∧
    m 4 = (fields.contains "df" || fields.contains "d2f") := by
  simp [entriesMask_fst, growthEntries]

/-- C114 (grain growth): holds if no derivatives are requested -/
theorem C114_growth_partial (n nq : Nat) (fields : List String) (h1 : "df" ∉ fields) (h2 : "d2f" ∉ fields) :
    growthFields n nq fields = .ok (expected nq (requested (growthTable n) fields)) := by
  have a : fields.contains "df" = false := by simpa using h1
  have b : fields.contains "d2f" = false := by simpa using h2
  obtain ⟨m0, m1, m2, m3, m4⟩ := growthMask n fields
  rw [a, b] at m4
  have hr : requested (growthTable n) fields = sel (fields.contains "bnds") [("bnds", .bnds)] ++
      sel (fields.contains "gb") [("gb", .gb)] ++ sel (fields.contains "energy") [("f", .energy)] := by
    rw [requested_sel]
    simp only [growthTable, List.flatMap_cons, List.flatMap_nil, a, b]
    simp [sel]
  refine frame_ok ?_ ?_ ?_
  · rw [entriesMask_snd, hr]
    simp only [growthEntries, List.map_cons, List.map_nil, List.sum_cons, List.sum_nil, a, b, List.length_append,
      sel_length, List.length_cons, List.length_nil]
    simp; omega
  · intro t hl
    unfold growthPoint
    rw [m0, m1, m2, m3, m4]
    rw [show (fun e : String × Quantity => some e.2) = some ∘ Prod.snd from rfl, ← List.map_map]
    have hv : (requested (growthTable n) fields).map Prod.snd = sel (fields.contains "bnds") [Quantity.bnds] ++
        sel (fields.contains "gb") [Quantity.gb] ++ sel (fields.contains "energy") [Quantity.energy] := by
      rw [hr]; simp [sel_map]
    have hl' : t.length = _ := hl.trans (by rw [← List.length_map (f := Prod.snd), hv])
    rw [hv]
    simp only [List.length_append] at hl'
    obtain ⟨s0, e0, h0⟩ := block_ok (fields.contains "bnds") [Quantity.bnds] (filled_start t)
      (by simp only [List.length_nil]; omega)
    rw [List.nil_append] at h0
    obtain ⟨s1, e1, h1⟩ := block_ok (fields.contains "gb") [Quantity.gb] h0 (by omega)
    obtain ⟨s2, e2, h2⟩ := block_ok (fields.contains "energy") [Quantity.energy] h1
      (by simp only [List.length_append]; omega)
    rw [e0, Res.ok_bind, e1, Res.ok_bind, e2, Res.ok_bind]
    exact congrArg Res.ok (filled_end h2 (by simp only [List.length_append]; omega))
  · unfold growthNames
    rw [m0, m1, m2, m4, hr]
    simp only [List.map_append]
    rw [part_eq (fields.contains "bnds") ["bnds"] [("bnds", Quantity.bnds)] rfl,
      part_eq (fields.contains "gb") ["gb"] [("gb", Quantity.gb)] rfl,
      part_eq (fields.contains "energy") ["f"] [("f", Quantity.energy)] rfl]
    simp [part]

private theorem pushes_ub : ∀ (xs : List Quantity) (s : Temp), s.counter ≤ s.temp.length →
    s.temp.length < s.counter + xs.length → xs.foldlM push s = .ub
  | [], s, h1, h2 => by simp at h2; omega
  | x :: xs, s, h1, h2 => by
    rw [List.foldlM_cons]
    rw [List.length_cons] at h2
    by_cases h : s.counter < s.temp.length
    · have : push s x = .ok ⟨s.counter + 1, s.temp.set s.counter (some x)⟩ := by
        unfold push; rw [setAt_ok h]; rfl
      rw [this, Res.ok_bind]
      exact pushes_ub xs _ (by simp; omega) (by simp; omega)
    · unfold push setAt; rw [if_neg h]; rfl

/-- The full claim is false for grain growth: the entry `df` carries the index of the second derivatives. With
four or more order parameters the request of `df` alone writes `n (n-1) / 2` values into a vector with `n`
entries. -/
theorem C114_growth_df_undefined (n nq : Nat) (hn : 4 ≤ n) (hq : 0 < nq) : growthFields n nq ["df"] = .ub := by
  obtain ⟨q, rfl⟩ : ∃ q, nq = q + 1 := ⟨nq - 1, by omega⟩
  have hc : (entriesMask (growthEntries n) ["df"]).2 = n := by rw [entriesMask_snd]; simp [growthEntries]
  obtain ⟨m0, m1, m2, m3, m4⟩ := growthMask n ["df"]
  have hk : growthPoint n (entriesMask (growthEntries n) ["df"]).1 (List.replicate n none) = .ub := by
    unfold growthPoint
    rw [m0, m1, m2, m3, m4]
    have : (pairs n Quantity.d2fDetaDeta).foldlM push ⟨0, List.replicate n none⟩ = .ub := by
      refine pushes_ub _ _ (Nat.zero_le _) ?_
      rw [pairs_length]
      simp only [List.length_replicate, Nat.zero_add]
      have h3 : n * 3 ≤ n * (n - 1) := Nat.mul_le_mul_left n (by omega)
      omega
    show (List.foldlM push ⟨0, List.replicate n none⟩ (pairs n Quantity.d2fDetaDeta) >>= _) = _
    rw [this]
    rfl
  unfold growthFields frame
  dsimp only
  rw [hc, if_neg (by omega)]
  unfold runPoints
  rw [hk]
  rfl

/-- With three order parameters the second derivatives are written under the names of the first derivatives;
with two, one of the two columns is never written. -/
theorem C114_growth_df_violated :
    growthFields 3 1 ["df"] = .ok [("df_deta0", [some (.d2fDetaDeta 0 1)]), ("df_deta1", [some (.d2fDetaDeta 0 2)]),
      ("df_deta2", [some (.d2fDetaDeta 1 2)])] ∧
    growthFields 2 1 ["df"] = .ok [("df_deta0", [some (.d2fDetaDeta 0 1)]), ("df_deta1", [none])] ∧
    growthFields 3 1 ["d2f"] = .ok [("df_deta0", [some (.d2fDetaDeta 0 1)]),
      ("df_deta1", [some (.d2fDetaDeta 0 2)]), ("df_deta2", [some (.d2fDetaDeta 1 2)])] := by
  decide +kernel

/-! ## Grand potential -/

/-- C114 (grand potential): holds if the empty name is not among the requested fields -/
theorem C114_greenquist_partial (nq : Nat) (fields : List String) (h : "" ∉ fields) :
    greenquistFields nq fields = .ok (expected nq (requested greenquistTable fields)) := by
  have a : fields.contains "" = false := by simpa using h
  have hm : (entriesMask greenquistEntries fields).1 0 = fields.contains "bnds" ∧
      (entriesMask greenquistEntries fields).1 1 = fields.contains "gb" := by
    constructor
    · simp [entriesMask_fst, greenquistEntries, h]
    · simp [entriesMask_fst, greenquistEntries]
  have hr : requested greenquistTable fields = sel (fields.contains "bnds") [("bnds", .bnds)] ++
      sel (fields.contains "gb") [("gb", .gb)] := by
    rw [requested_sel]; simp [greenquistTable]
  refine frame_ok ?_ ?_ ?_
  · rw [entriesMask_snd, hr]
    simp only [greenquistEntries, List.map_cons, List.map_nil, List.sum_cons, List.sum_nil, a, List.length_append,
      sel_length, List.length_cons, List.length_nil]
    simp
  · intro t hl
    unfold greenquistPoint
    rw [hm.1, hm.2]
    rw [show (fun e : String × Quantity => some e.2) = some ∘ Prod.snd from rfl, ← List.map_map]
    have hv : (requested greenquistTable fields).map Prod.snd = sel (fields.contains "bnds") [Quantity.bnds] ++
        sel (fields.contains "gb") [Quantity.gb] := by
      rw [hr]; simp [sel_map]
    have hl' : t.length = _ := hl.trans (by rw [← List.length_map (f := Prod.snd), hv])
    rw [hv]
    simp only [List.length_append] at hl'
    obtain ⟨s0, e0, h0⟩ := block_ok (fields.contains "bnds") [Quantity.bnds] (filled_start t)
      (by simp only [List.length_nil]; omega)
    rw [List.nil_append] at h0
    obtain ⟨s1, e1, h1⟩ := block_ok (fields.contains "gb") [Quantity.gb] h0 (by omega)
    rw [e0, Res.ok_bind, e1, Res.ok_bind]
    exact congrArg Res.ok (filled_end h1 (by simp only [List.length_append]; omega))
  · unfold greenquistNames
    rw [hm.1, hm.2, hr]
    simp only [List.map_append]
    rw [part_eq (fields.contains "bnds") ["bnds"] [("bnds", Quantity.bnds)] rfl,
      part_eq (fields.contains "gb") ["gb"] [("gb", Quantity.gb)] rfl]

/-- The array of the fields has five entries, three of them with an empty name: requesting the empty name together
with `gb` writes two values into a vector with one entry. -/
theorem C114_greenquist_violated : greenquistFields 1 ["", "gb"] = .ub := by decide +kernel

/-! ## Coupling with elasticity -/

/-- C114 (sintering with elasticity, two or three dimensions): velocities are taken from the blocks of the
displacements in the order of the directions, strains carry the names of their components. -/
theorem C114_coupled (dim first nq : Nat) (fields : List String) (hd : dim = 2 ∨ dim = 3) :
    coupledFields dim first nq fields =
      .ok ((if "vel" ∈ fields then (List.range dim).map fun d => ("vel", some (Col.nodal (first + d))) else []) ++
        (if "strain_lin" ∈ fields then (voigtValues dim).map fun q =>
          (strainName q, some (Col.points (List.replicate nq (some q)))) else [])) := by
  have hm0 : (entriesMask [("vel", 0, dim), ("strain_lin", 1, voigtSize dim)] fields).1 0 =
      fields.contains "vel" := by simp [entriesMask_fst]
  have hm1 : (entriesMask [("vel", 0, dim), ("strain_lin", 1, voigtSize dim)] fields).1 1 =
      fields.contains "strain_lin" := by simp [entriesMask_fst]
  have hm2 : (entriesMask [("vel", 0, dim), ("strain_lin", 1, voigtSize dim)] fields).2 =
      (if "vel" ∈ fields then dim else 0) + (if "strain_lin" ∈ fields then voigtSize dim else 0) := by
    rw [entriesMask_snd]; simp
  unfold coupledFields
  dsimp only
  generalize entriesMask [("vel", 0, dim), ("strain_lin", 1, voigtSize dim)] fields = m at hm0 hm1 hm2 ⊢
  have hsz : voigtSize dim = (voigtValues dim).length := by rcases hd with rfl | rfl <;> rfl
  have hrun : "strain_lin" ∈ fields → runPoints (strainPoint dim m.1) nq (List.replicate (voigtSize dim) none) =
      .ok (List.replicate nq ((voigtValues dim).map some)) := by
    intro hs
    refine runPoints_ok (r := (voigtValues dim).map some) (fun t ht => ?_) nq _ (by simp [hsz])
    rw [List.length_map] at ht
    have hc : fields.contains "strain_lin" = true := by simpa using hs
    unfold strainPoint
    rw [hm1, hc]
    obtain ⟨s, e, h⟩ := block_ok true (voigtValues dim) (filled_start t) (by simp [sel, ht])
    rw [e, Res.ok_bind]
    exact congrArg Res.ok (by simpa [sel] using filled_end h (by simp [sel, ht]))
  have hcol : ∀ (r : List (Option Quantity)) c, column (List.replicate nq r) c = List.replicate nq (r[c]?).join := by
    intro r c; unfold column; rw [List.map_replicate]
  by_cases h0 : "vel" ∈ fields <;> by_cases h1 : "strain_lin" ∈ fields
  · have c0 : fields.contains "vel" = true := by simpa using h0
    have c1 : fields.contains "strain_lin" = true := by simpa using h1
    rw [c0] at hm0; rw [c1] at hm1; rw [if_pos h0, if_pos h1] at hm2
    rw [if_pos h0, if_pos h1, hm2]
    have hrun := hrun h1
    rcases hd with rfl | rfl
    · simp only [nodalCols, strainCols, coupledNames, hm0, hm1, if_true, Nat.add_sub_cancel_left, hrun, Res.ok_bind,
        hcol]
      rfl
    · simp only [nodalCols, strainCols, coupledNames, hm0, hm1, if_true, Nat.add_sub_cancel_left, hrun, Res.ok_bind,
        hcol]
      rfl
  · have c0 : fields.contains "vel" = true := by simpa using h0
    have c1 : fields.contains "strain_lin" = false := by simpa using h1
    rw [c0] at hm0; rw [c1] at hm1; rw [if_pos h0, if_neg h1] at hm2
    rw [if_pos h0, if_neg h1, hm2]
    rcases hd with rfl | rfl
    · simp only [nodalCols, strainCols, coupledNames, hm0, hm1, if_true]
      rfl
    · simp only [nodalCols, strainCols, coupledNames, hm0, hm1, if_true]
      rfl
  · have c0 : fields.contains "vel" = false := by simpa using h0
    have c1 : fields.contains "strain_lin" = true := by simpa using h1
    rw [c0] at hm0; rw [c1] at hm1; rw [if_neg h0, if_pos h1, Nat.zero_add] at hm2
    rw [if_neg h0, if_pos h1, hm2]
    have hrun := hrun h1
    rcases hd with rfl | rfl
    · simp only [nodalCols, strainCols, coupledNames, hm0, hm1, Bool.false_eq_true, if_false, Nat.sub_zero, hrun,
        Res.ok_bind, hcol]
      rfl
    · simp only [nodalCols, strainCols, coupledNames, hm0, hm1, Bool.false_eq_true, if_false, Nat.sub_zero, hrun,
        Res.ok_bind, hcol]
      rfl
  · rw [if_neg h0, if_neg h1] at hm2
    rw [if_neg h0, if_neg h1, if_pos hm2]
    rfl

/-! ## Values -/

/-- the quantity `gb` is the sum over all pairs of grains -/
theorem C114_gb {K : Type} [CommSemiring K] (n : Nat) (eta : Nat → K) :
    gbValue n eta = ∑ i ∈ Finset.range n, ∑ j ∈ Finset.range i, eta i * eta j := by
  have inner : ∀ (i k : Nat) (s : K), (List.range k).foldl (fun s j => s + eta i * eta j) s =
      s + ∑ j ∈ Finset.range k, eta i * eta j := by
    intro i k s
    induction k with
    | zero => simp
    | succ k ih => rw [List.range_succ, List.foldl_append, ih, Finset.sum_range_succ]; simp [add_assoc]
  unfold gbValue
  induction n with
  | zero => simp
  | succ n ih => rw [List.range_succ, List.foldl_append, ih, Finset.sum_range_succ]; simp [inner]

/-! ## Examples -/
namespace Ex114

/-- two grains in two dimensions, five components -/
example : sinteringFields false 2 2 1 ["kappa", "d2f", "bnds"] = .ok
    [("bnds", [some .bnds]), ("d2f_dc2", [some .d2fDc2]), ("d2f_dcdeta0", [some (.d2fDcDeta 0)]),
     ("d2f_dcdeta1", [some (.d2fDcDeta 1)]), ("d2f_deta02", [some (.d2fDeta2 0)]),
     ("d2f_deta12", [some (.d2fDeta2 1)]), ("d2f_deta0deta1", [some (.d2fDetaDeta 0 1)]),
     ("kappa_c", [some .kappaC]), ("kappa_p", [some .kappaP])] := by decide +kernel

example : sinteringFields false 2 2 2 ["flux"] =
    .ok (expected 2 [("flux_vol", .flux 0 0), ("flux_vol", .flux 0 1), ("flux_vap", .flux 1 0),
      ("flux_vap", .flux 1 1), ("flux_surf", .flux 2 0), ("flux_surf", .flux 2 1), ("flux_gb", .flux 3 0),
      ("flux_gb", .flux 3 1)]) := by decide +kernel

example : sinteringFields true 2 2 1 ["M"] = .exc .assertThrow := C114_tensorial 2 2 1 ["M"] (by decide) (by simp)

example : genericFields false true 2 2 1 (fun ig => ig == 1) ["vel", "gb"] =
    .ok [("gb", [some .gb]), ("vel0", [some .zero]), ("vel0", [some .zero]), ("vel1", [some (.velocity 1 0)]),
      ("vel1", [some (.velocity 1 1)])] := by decide +kernel

example : growthFields 3 1 ["energy", "gb"] = .ok [("gb", [some .gb]), ("f", [some .energy])] :=
  C114_growth_partial 3 1 _ (by simp) (by simp)

example : growthFields 5 2 ["df"] = .ub := C114_growth_df_undefined 5 2 (by omega) (by omega)

example : greenquistFields 1 ["gb"] = .ok [("gb", [some .gb])] := C114_greenquist_partial 1 _ (by simp)

example : coupledFields 2 4 1 ["vel", "strain_lin"] =
    .ok [("vel", some (.nodal 4)), ("vel", some (.nodal 5)), ("lin_eps_xx", some (.points [some (.eps 0)])),
      ("lin_eps_yy", some (.points [some (.eps 1)])), ("lin_tau_xy", some (.points [some (.gamma 0 1)]))] := by
  decide +kernel

example : gbValue (K := ℚ) 3 (fun i => if i = 0 then 1/2 else if i = 1 then 1/4 else 1/4) = 5/16 := by
  decide +kernel

end Ex114
end Verif.Props
