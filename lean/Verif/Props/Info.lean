import Mathlib.Algebra.Field.Rat
import Mathlib.Algebra.Order.Ring.Rat
import Mathlib.Algebra.Order.BigOperators.Group.List
import Mathlib.Tactic.Ring
import Mathlib.Data.Fin.VecNotation
import Mathlib.Tactic.FieldSimp
import Mathlib.Tactic.Linarith
import Verif.Lemmas.Info
/-!
# Particle properties (C15, C47)
-/
namespace Verif.Props
open Verif Spec
variable {K : Type}

section info
variable [Field K] [DecidableEq K]

/-- **C15, measure and barycentre.** However the cells are distributed over ranks and in whatever
order they are visited, the measure of particle `u` is the sum of the measures of its cells, its
centre times its measure is the sum of (cell centre times cell measure), and there is no centre
exactly if the measure vanishes. -/
theorem C15_info (dim : Nat) (geo : CellGeo K) {ids : Nat → Option Nat} {cells : List Nat}
    {ranks : List (List Nat)} {n : Nat} (h : Shares ids cells ranks n) :
    ∃ res, particlesInfo dim geo ids ranks n = .ok res ∧ res.length = n ∧
      ∀ u < n, ∃ p, res[u]? = some p ∧ p.measure = total ids cells u geo.measure ∧
        p.center.length = dim ∧
        ∀ d < dim,
          (p.measure = 0 → p.center[d]? = some none) ∧
          (p.measure ≠ 0 → ∃ x, p.center[d]? = some (some x) ∧
            x * p.measure = total ids cells u (fun c => geo.center c d * geo.measure c)) := by
  have hlt : ∀ u < n, ∀ j < 1 + dim, (1 + dim) * u + j < n * (1 + dim) := by
    intro u hu j hj
    calc (1 + dim) * u + j < (1 + dim) * u + (1 + dim) := by omega
      _ = (1 + dim) * (u + 1) := by ring
      _ ≤ (1 + dim) * n := Nat.mul_le_mul_left _ hu
      _ = n * (1 + dim) := Nat.mul_comm _ _
  obtain ⟨vs, h1, h2, h3⟩ := accumulate_ranks (infoContrib dim geo ids) h.some_rank h.perm
    (n * (1 + dim)) (by
      intro c hc p hp
      rw [infoContrib_eq] at hp
      cases hi : ids c with
      | none => rw [hi] at hp; simp at hp
      | some u =>
        rw [hi] at hp
        obtain ⟨q, hq, rfl⟩ := List.mem_map.1 hp
        have := List.snd_lt_of_mem_zipIdx hq
        exact hlt u (h.range c hc u hi) q.2 (by simp at this; omega))
  have key : ∀ u < n, ∀ j < 1 + dim, (allSum vs)[(1 + dim) * u + j]? = some (total ids cells u
      (fun c => (geo.measure c :: (List.range dim).map fun d => geo.center c d * geo.measure c).getD
        j 0)) := by
    intro u hu j hj
    rw [h3 _ (hlt u hu j hj)]
    congr 1
    exact contrib_total (k := 1 + dim)
      (fun _ c => geo.measure c :: (List.range dim).map fun d => geo.center c d * geo.measure c)
      ids cells _ (fun c _ => infoContrib_eq dim geo ids c)
      (fun c _ u => by simp [Nat.add_comm]) u j hj
  let M : Nat → K := fun u => total ids cells u geo.measure
  let C : Nat → Nat → K := fun u d => total ids cells u (fun c => geo.center c d * geo.measure c)
  have hread : ∀ u < n, readInfo dim (allSum vs) u =
      .ok ⟨(List.range dim).map fun d => fdiv (C u d) (M u), M u⟩ := by
    intro u hu
    have k0 := key u hu 0 (by omega)
    simp only [List.getD_cons_zero, Nat.add_zero] at k0
    have kd : ∀ d < dim, (allSum vs)[u * (1 + dim) + 1 + d]? = some (C u d) := by
      intro d hd
      have := key u hu (1 + d) (by omega)
      rw [show u * (1 + dim) + 1 + d = (1 + dim) * u + (1 + d) by ring, this]
      simp [C, Nat.add_comm 1 d, List.getElem?_range hd]
    have hmap : ∀ l : List Nat, (∀ d ∈ l, d < dim) →
        l.mapM (readCoord dim (allSum vs) u (M u)) = Res.ok (l.map fun d => fdiv (C u d) (M u)) := by
      intro l
      induction l with
      | nil => intro _; rfl
      | cons a l ih =>
        intro hl
        rw [List.mapM_cons, ih (fun d hd => hl d (by simp [hd]))]
        simp only [readCoord, Res.index, kd a (hl a (by simp)), Res.ok_bind]
        rfl
    have hidx : Res.index (allSum vs) (u * (1 + dim)) = .ok (M u) := by
      rw [Res.index, Nat.mul_comm, k0]
    unfold readInfo
    rw [hidx, Res.ok_bind, hmap _ (fun d hd => List.mem_range.1 hd)]
    rfl
  have hall : (List.range n).mapM (readInfo dim (allSum vs)) = .ok ((List.range n).map fun u =>
      (⟨(List.range dim).map fun d => fdiv (C u d) (M u), M u⟩ : ParticleInfo K)) := by
    have : ∀ l : List Nat, (∀ u ∈ l, u < n) → l.mapM (readInfo dim (allSum vs)) =
        Res.ok (l.map fun u =>
          (⟨(List.range dim).map fun d => fdiv (C u d) (M u), M u⟩ : ParticleInfo K)) := by
      intro l
      induction l with
      | nil => intro _; rfl
      | cons a l ih =>
        intro hl
        rw [List.mapM_cons, hread a (hl a (by simp)), ih (fun d hd => hl d (by simp [hd]))]
        rfl
    exact this _ (fun d hd => List.mem_range.1 hd)
  refine ⟨_, by unfold particlesInfo; rw [h1, Res.ok_bind]; exact hall, by simp, fun u hu => ?_⟩
  refine ⟨_, by rw [List.getElem?_map, List.getElem?_range hu]; rfl, rfl, by simp, fun d hd => ?_⟩
  constructor
  · intro h0
    simp only at h0
    rw [List.getElem?_map, List.getElem?_range hd]
    simp [fdiv, h0]
  · intro h0
    simp only at h0
    exact ⟨C u d / M u, by simp [List.getElem?_range hd, fdiv, h0], div_mul_cancel₀ _ h0⟩

/-- **C15, wrong numbers.** A particle number that is not smaller than the number of particles makes
the loop write past the end of the array (`AssertIndexRange` is active in debug builds only). -/
theorem C15_range_ub (dim : Nat) (geo : CellGeo K) {ids : Nat → Option Nat} {cells : List Nat} {n : Nat}
    (h : ∃ c ∈ cells, ∃ u, ids c = some u ∧ n ≤ u) : particlesInfo dim geo ids [cells] n = .ub := by
  obtain ⟨c, hc, u, hu, hn⟩ := h
  have : accumulate (infoContrib dim geo ids) cells (List.replicate (n * (1 + dim)) 0) = .ub := by
    rw [accumulate_eq]
    refine addAt_fold_ub _ _ ⟨((1 + dim) * u + 0, geo.measure c),
      List.mem_flatMap.2 ⟨c, hc, by simp [infoContrib, hu]⟩, ?_⟩
    simp only [List.length_replicate, Nat.add_zero]
    rw [Nat.mul_comm]
    exact Nat.mul_le_mul_left _ hn
  simp [particlesInfo, this]

omit [DecidableEq K] in
/-- **C15, inertia.** The inertia entries are the sums of the cell contributions as well. -/
theorem C15_inertia {k : Nat} (f : Nat → Nat → List K) {ids : Nat → Option Nat} {cells : List Nat}
    {ranks : List (List Nat)} {n : Nat} (h : Shares ids cells ranks n)
    (hf : ∀ u c, (f u c).length = k) :
    ∃ res, particlesInertia k f ids ranks n = .ok res ∧ res.length = n * k ∧
      ∀ u < n, ∀ j < k, res[u * k + j]? = some (total ids cells u (fun c => (f u c).getD j 0)) := by
  have hlt : ∀ u < n, ∀ j < k, k * u + j < n * k := by
    intro u hu j hj
    calc k * u + j < k * u + k := by omega
      _ = k * (u + 1) := by ring
      _ ≤ k * n := Nat.mul_le_mul_left _ hu
      _ = n * k := Nat.mul_comm _ _
  obtain ⟨vs, h1, h2, h3⟩ := accumulate_ranks (inertiaContrib k f ids) h.some_rank h.perm
    (n * k) (by
      intro c hc p hp
      unfold inertiaContrib at hp
      cases hi : ids c with
      | none => rw [hi] at hp; simp at hp
      | some u =>
        rw [hi] at hp
        obtain ⟨q, hq, rfl⟩ := List.mem_map.1 hp
        have := List.snd_lt_of_mem_zipIdx hq
        exact hlt u (h.range c hc u hi) q.2 (by rw [hf] at this; omega))
  refine ⟨allSum vs, by simp [particlesInertia, h1], h2, fun u hu j hj => ?_⟩
  rw [Nat.mul_comm u k, h3 _ (hlt u hu j hj)]
  congr 1
  exact contrib_total f ids cells _ (fun c _ => rfl) (fun c _ u => hf u c) u j hj

end info

/-- Specification: entry `i,j` of the inertia tensor of a point mass, `m (|r|² δ_ij - r_i r_j)`. -/
def pointInertia [Field K] {n : Nat} (r : Fin n → K) (m : K) (i j : Fin n) : K :=
  m * ((if i = j then (List.ofFn fun k => r k ^ 2).sum else 0) - r i * r j)

/-- **C15, inertia tensor.** The amounts added for a cell are the entries 11, 22 and 12 (and in three dimensions 11,
22, 33, 12, 13 and 23) of the inertia tensor of a point mass. -/
theorem C15_inertia_tensor [Field K] (x y z m : K) :
    inertia2 x y m = [pointInertia ![x, y] m 0 0, pointInertia ![x, y] m 1 1, pointInertia ![x, y] m 0 1] ∧
    inertia3 x y z m = [pointInertia ![x, y, z] m 0 0, pointInertia ![x, y, z] m 1 1, pointInertia ![x, y, z] m 2 2,
      pointInertia ![x, y, z] m 0 1, pointInertia ![x, y, z] m 0 2, pointInertia ![x, y, z] m 1 2] := by
  constructor
  · simp only [inertia2, List.cons.injEq, and_true]
    refine ⟨?_, ?_, ?_⟩ <;> simp [pointInertia] <;> ring
  · simp only [inertia3, List.cons.injEq, and_true]
    refine ⟨?_, ?_, ?_, ?_, ?_, ?_⟩ <;> simp [pointInertia] <;> ring

/-- **C15, barycentre.** With positive cell measures the centre lies between the smallest and the
largest cell centre of the particle, in every direction. -/
theorem C15_center_between [Field K] [LinearOrder K] [IsStrictOrderedRing K] (dim : Nat)
    (geo : CellGeo K) {ids : Nat → Option Nat} {cells : List Nat} {ranks : List (List Nat)} {n : Nat}
    (h : Shares ids cells ranks n) (hpos : ∀ c ∈ cells, 0 < geo.measure c) {u d : Nat} (hu : u < n)
    (hd : d < dim) {a b : K}
    (hab : ∀ c ∈ cells, ids c = some u → a ≤ geo.center c d ∧ geo.center c d ≤ b)
    (hne : ∃ c ∈ cells, ids c = some u) :
    ∃ res p x, particlesInfo dim geo ids ranks n = .ok res ∧ res[u]? = some p ∧
      p.center[d]? = some (some x) ∧ a ≤ x ∧ x ≤ b := by
  obtain ⟨res, h1, -, h3⟩ := C15_info dim geo h
  obtain ⟨p, hp, hm, -, hc⟩ := h3 u hu
  have aux : ∀ l : List Nat, (∀ c ∈ l, 0 < geo.measure c ∧ a ≤ geo.center c d ∧ geo.center c d ≤ b) →
      (l ≠ [] → 0 < (l.map geo.measure).sum) ∧
      a * (l.map geo.measure).sum ≤ (l.map fun c => geo.center c d * geo.measure c).sum ∧
      (l.map fun c => geo.center c d * geo.measure c).sum ≤ b * (l.map geo.measure).sum := by
    intro l
    induction l with
    | nil => simp
    | cons c l ih =>
      intro hl
      obtain ⟨i1, i2, i3⟩ := ih (fun c' h' => hl c' (by simp [h']))
      obtain ⟨j1, j2, j3⟩ := hl c (by simp)
      have k2 := mul_le_mul_of_nonneg_right j2 (le_of_lt j1)
      have k3 := mul_le_mul_of_nonneg_right j3 (le_of_lt j1)
      simp only [List.map_cons, List.sum_cons]
      refine ⟨fun _ => ?_, by linarith [mul_add a (geo.measure c) (l.map geo.measure).sum], by
        linarith [mul_add b (geo.measure c) (l.map geo.measure).sum]⟩
      by_cases hl0 : l = []
      · subst hl0; simpa using j1
      · linarith [i1 hl0]
  have hmem : ∀ c ∈ cellsOf ids cells u, c ∈ cells ∧ ids c = some u := by
    intro c hc
    simpa [cellsOf] using hc
  obtain ⟨a1, a2, a3⟩ := aux (cellsOf ids cells u) (fun c hc =>
    ⟨hpos c (hmem c hc).1, hab c (hmem c hc).1 (hmem c hc).2⟩)
  have hM : 0 < p.measure := by
    rw [hm]
    apply a1
    obtain ⟨c, hc, hcu⟩ := hne
    intro h0
    have : c ∈ cellsOf ids cells u := by simp [cellsOf, hc, hcu]
    rw [h0] at this; simp at this
  obtain ⟨x, hx, hxm⟩ := (hc d hd).2 (ne_of_gt hM)
  refine ⟨res, p, x, h1, hp, hx, ?_, ?_⟩
  · refine le_of_mul_le_mul_right ?_ hM
    rw [hxm, hm]; exact a2
  · refine le_of_mul_le_mul_right ?_ hM
    rw [hxm, hm]; exact a3

section radii
variable [Field K] [LinearOrder K] {V : Type} [AddCommGroup V] [SMul K V]

/-- the ranks' loops together -/
theorem radii_ranks (E : CellExt V K) {ids : Nat → Option Nat} {cells : List Nat}
    {ranks : List (List Nat)} {n : Nat} (h : Shares ids cells ranks n) :
    ∃ rs : List (List K × List (Option V)), ranks.mapM (fun cs => rankRadii E ids cs n) = .ok rs ∧
      rs.length = ranks.length ∧
      ∀ (k : Nat) (cs : List Nat), ranks[k]? = some cs → ∃ s, rs[k]? = some s ∧ s.1.length = n ∧
        s.2.length = n ∧
        ∀ u < n, ∃ r x, s.1[u]? = some r ∧ s.2[u]? = some x ∧ RadiusAt E ids cs u r x := by
  have hmem : ∀ cs ∈ ranks, ∀ c ∈ cs, c ∈ cells := fun cs hcs c hc =>
    h.perm.subset (List.mem_flatten.2 ⟨cs, hcs, hc⟩)
  have hgood : ∀ cs ∈ ranks, ∃ s, rankRadii E ids cs n = .ok s ∧ s.1.length = n ∧ s.2.length = n ∧
      ∀ u < n, ∃ r x, s.1[u]? = some r ∧ s.2[u]? = some x ∧ RadiusAt E ids cs u r x :=
    fun cs hcs => rankRadii_ok E (fun c hc u hu => h.range c (hmem cs hcs c hc) u hu)
  clear h hmem
  induction ranks with
  | nil => exact ⟨[], rfl, rfl, by simp⟩
  | cons a l ih =>
    obtain ⟨s, s1, s2⟩ := hgood a (by simp)
    obtain ⟨rs, r1, r2, r3⟩ := ih (fun cs hcs => hgood cs (by simp [hcs]))
    refine ⟨s :: rs, by rw [List.mapM_cons, s1, Res.ok_bind, r1]; rfl, by simp [r2], ?_⟩
    intro k cs hk
    cases k with
    | zero => simp at hk; subst hk; exact ⟨s, rfl, s2⟩
    | succ k => exact r3 k cs (by simpa using hk)

/-- **C15, radius.** The radius of a particle reaches every cell of the particle (distance of the
cell from the centre plus half the diameter), and it is the smallest such number: zero or attained by
a cell. -/
theorem C15_radii (tol : K) (E : CellExt V K) {ids : Nat → Option Nat} {cells : List Nat}
    {ranks : List (List Nat)} {n : Nat} (h : Shares ids cells ranks n) :
    ∃ res, particlesRadii tol E ids ranks n = .ok res ∧ res.1.length = n ∧
      ∀ u < n, ∃ r, res.1[u]? = some r ∧ 0 ≤ r ∧
        (∀ c ∈ cells, ids c = some u → E.dist c ≤ r) ∧
        (r = 0 ∨ ∃ c ∈ cells, ids c = some u ∧ E.dist c = r) := by
  obtain ⟨rs, r1, r2, r3⟩ := radii_ranks E h
  have hlen : ∀ v ∈ rs.map (·.1), v.length = n := by
    intro v hv
    obtain ⟨s, hs, rfl⟩ := List.mem_map.1 hv
    obtain ⟨k, hk⟩ := List.mem_iff_getElem?.1 hs
    have hkl : k < ranks.length := by rw [← r2]; exact (List.getElem?_eq_some_iff.1 hk).1
    obtain ⟨s', q1, q2, -⟩ := r3 k ranks[k] (List.getElem?_eq_getElem hkl)
    rw [hk] at q1; simp at q1; rw [q1]; exact q2
  have hne : rs.map (·.1) ≠ [] := by
    intro h0
    have : rs.length = 0 := by simpa using congrArg List.length h0
    rw [r2] at this
    exact h.some_rank (List.length_eq_zero_iff.1 this)
  obtain ⟨m1, m2⟩ := allMax_spec (rs.map (·.1)) hne hlen
  refine ⟨_, by unfold particlesRadii; rw [r1, Res.ok_bind]; rfl, m1, fun u hu => ?_⟩
  have hget := List.getElem?_eq_getElem (show u < (allMax (rs.map (·.1))).length by rw [m1]; exact hu)
  obtain ⟨⟨v, hv, hvu⟩, hub⟩ := m2 u _ hget
  refine ⟨_, hget, ?_⟩
  obtain ⟨s, hs, rfl⟩ := List.mem_map.1 hv
  obtain ⟨k, hk⟩ := List.mem_iff_getElem?.1 hs
  have hkl : k < ranks.length := by rw [← r2]; exact (List.getElem?_eq_some_iff.1 hk).1
  obtain ⟨s', q1, -, -, q4⟩ := r3 k ranks[k] (List.getElem?_eq_getElem hkl)
  rw [hk] at q1; simp at q1; subst q1
  obtain ⟨r, x, e1, -, e3⟩ := q4 u hu
  rw [hvu] at e1; simp at e1; subst e1
  refine ⟨e3.nonneg, ?_, ?_⟩
  · intro c hc hcu
    have : c ∈ ranks.flatten := h.perm.symm.subset hc
    obtain ⟨cs, hcs, hccs⟩ := List.mem_flatten.1 this
    obtain ⟨j, hj⟩ := List.mem_iff_getElem?.1 hcs
    obtain ⟨t, t1, -, -, t4⟩ := r3 j cs hj
    obtain ⟨r', x', f1, -, f3⟩ := t4 u hu
    exact le_trans (f3.bound c hccs hcu)
      (hub t.1 (List.mem_map.2 ⟨t, List.mem_of_getElem? t1, rfl⟩) r' f1)
  · rcases e3.attained with ⟨h, -⟩ | ⟨-, c, hc, hcu, he, -⟩
    · exact Or.inl h
    · exact Or.inr ⟨c, h.perm.subset (List.mem_flatten.2 ⟨_, List.getElem_mem hkl, hc⟩), hcu, he⟩

end radii

section remote
variable [Field K] [LinearOrder K] [IsStrictOrderedRing K] {V : Type} [AddCommGroup V] [Module K V]

/-- **C47 (partial).** If one rank alone comes close to the radius of particle `u`, the remote point is
the extent of a furthest cell, and its distance from the centre is the radius.

Full statement (violated, see `C47_violated`): this holds for every distribution of the cells. -/
theorem C47_remote_partial {tol : K} (htol : 0 ≤ tol) (E : CellExt V K)
    (hnorm : ∀ (a : K) (v : V), 0 ≤ a → E.norm (a • v) = a * E.norm v)
    (hnn : ∀ v, 0 ≤ E.norm v) (hdiam : ∀ c, 0 ≤ E.diam c)
    {ids : Nat → Option Nat} {cells : List Nat} {ranks : List (List Nat)} {n : Nat}
    (h : Shares ids cells ranks n) {u k : Nat} (hu : u < n) {R : K}
    (hR : ∀ c ∈ cells, ids c = some u → E.dist c ≤ R) (htR : tol < R)
    {own : List Nat} (hk : ranks[k]? = some own) (hatt : ∃ c ∈ own, ids c = some u ∧ E.dist c = R)
    (hcen : ∀ c ∈ own, ids c = some u → E.norm (E.rel c) ≠ 0)
    (hoth : ∀ (j : Nat) (cs : List Nat), ranks[j]? = some cs → j ≠ k →
      ∀ c ∈ cs, ids c = some u → E.dist c + tol < R) :
    ∃ res v, particlesRadii tol E ids ranks n = .ok res ∧ res.1[u]? = some R ∧
      res.2[u]? = some (some v) ∧ E.norm v = R ∧
      ∃ c ∈ own, ids c = some u ∧ E.dist c = R ∧ E.vec c = some v := by
  obtain ⟨rs, r1, r2, r3⟩ := radii_ranks E h
  obtain ⟨res, g1, g2, g3⟩ := C15_radii tol E h
  obtain ⟨R', f1, f2, f3, f4⟩ := g3 u hu
  obtain ⟨c0, hc0, hc0u, hc0R⟩ := hatt
  have hownmem : ∀ c ∈ own, c ∈ cells := fun c hc =>
    h.perm.subset (List.mem_flatten.2 ⟨own, List.mem_of_getElem? hk, hc⟩)
  have hRpos : 0 < R := lt_of_le_of_lt htol htR
  have hRR : R' = R := by
    apply le_antisymm
    · rcases f4 with h0 | ⟨c, hc, hcu, he⟩
      · rw [h0]; exact le_of_lt hRpos
      · rw [← he]; exact hR c hc hcu
    · rw [← hc0R]; exact f3 c0 (hownmem c0 hc0) hc0u
  subst hRR
  have hres : res = (allMax (rs.map (·.1)), sumRemotes (rs.map fun r =>
      nullify tol (allMax (rs.map (·.1))) r.1 r.2)) := by
    unfold particlesRadii at g1
    rw [r1, Res.ok_bind] at g1
    simpa using g1.symm
  have hgl : (allMax (rs.map (·.1)))[u]? = some R' := by rw [hres] at f1; exact f1
  -- entry of one rank after nullification
  have hnull : ∀ (s : List K × List (Option V)) (r : K) (x : Option V), s.1[u]? = some r →
      s.2[u]? = some x → (nullify tol (allMax (rs.map (·.1))) s.1 s.2)[u]? =
        some (if |R' - r| > tol then some 0 else x) := by
    intro s r x e1 e2
    simp only [nullify, List.getElem?_zipWith, List.zip, hgl, e1, e2]
  obtain ⟨s, s1, -, -, s4⟩ := r3 k own hk
  obtain ⟨r, x, e1, e2, e3⟩ := s4 u hu
  have hrR : r = R' := by
    apply le_antisymm
    · rcases e3.attained with ⟨h0, -⟩ | ⟨-, c, hc, hcu, he, -⟩
      · rw [h0]; exact le_of_lt hRpos
      · rw [← he]; exact hR c (hownmem c hc) hcu
    · rw [← hc0R]; exact e3.bound c0 hc0 hc0u
  subst hrR
  rcases e3.attained with ⟨h0, -⟩ | ⟨-, c, hc, hcu, he, hxv⟩
  · rw [h0] at hRpos; exact absurd hRpos (lt_irrefl _)
  have hvec : E.vec c = some (E.rel c + (E.diam c / 2) • ((E.norm (E.rel c))⁻¹ • E.rel c)) := by
    unfold CellExt.vec; rw [if_neg (hcen c hc hcu)]
  refine ⟨res, _, g1, f1, ?_, ?_, c, hc, hcu, he, hvec⟩
  · rw [hres]
    refine sumRemotes_single _ k ⟨_, by rw [List.getElem?_map, s1]; rfl, ?_⟩ ?_
    · rw [hnull s r x e1 e2, hxv, hvec]
      simp [htol]
    · intro j v hj hjk
      have hjl : j < ranks.length := by
        rw [← r2]
        have := (List.getElem?_eq_some_iff.1 hj).1
        simpa using this
      obtain ⟨t, t1, -, -, t4⟩ := r3 j ranks[j] (List.getElem?_eq_getElem hjl)
      rw [List.getElem?_map, t1] at hj
      simp at hj
      subst hj
      obtain ⟨r', x', a1, a2, a3⟩ := t4 u hu
      rw [hnull t r' x' a1 a2, if_pos]
      have hlt : r' + tol < r := by
        rcases a3.attained with ⟨h0, -⟩ | ⟨-, c', hc', hcu', he', -⟩
        · rw [h0, zero_add]; exact htR
        · rw [← he']; exact hoth j ranks[j] (List.getElem?_eq_getElem hjl) hjk c' hc' hcu'
      rw [gt_iff_lt]
      exact lt_of_lt_of_le (by linarith) (le_abs_self _)
  · have hne := hcen c hc hcu
    have hpos : 0 < E.norm (E.rel c) := lt_of_le_of_ne (hnn _) (Ne.symm hne)
    have : E.rel c + (E.diam c / 2) • ((E.norm (E.rel c))⁻¹ • E.rel c) =
        (1 + E.diam c / 2 * (E.norm (E.rel c))⁻¹) • E.rel c := by
      rw [add_smul, one_smul, mul_smul]
    rw [this, hnorm _ _ (by
      have := mul_nonneg (div_nonneg (hdiam c) (by norm_num : (0:K) ≤ 2)) (le_of_lt (inv_pos.2 hpos))
      linarith), ← he, CellExt.dist]
    field_simp

end remote

/-! ## Concrete cases -/
namespace Ex15
/-- four cells of one particle on a line, centre 0; positions -3/2, -1/2, 1/2, 3/2; diameter 1 -/
def ext : CellExt Rat Rat :=
  ⟨fun c => (c : Rat) - 3 / 2, fun _ => 1, fun v => |v|⟩
def ids : Nat → Option Nat := fun c => if c < 4 then some 0 else none
def geo : CellGeo Rat := ⟨fun _ => 1, fun c _ => (c : Rat) + 1 / 2⟩
example : Shares ids [0, 1, 2, 3, 4] [[2, 1], [4, 3, 0]] 1 :=
  ⟨by decide, by decide, by
    intro c hc u hu
    simp only [ids] at hu
    split at hu <;> simp_all⟩
example : particlesInfo 1 geo ids [[2, 1], [4, 3, 0]] 2 = .ok [⟨[some 2], 4⟩, ⟨[none], 0⟩] := by
  decide +kernel
example : (particlesRadii (1/1000) ext ids [[2, 1], [4, 3, 0]] 1) = .ok ([2], [some 2]) := by
  decide +kernel
/-- an unsymmetric distribution meeting the hypotheses of `C47_remote_partial` -/
example : (particlesRadii (1/1000) ext ids [[2, 1], [0]] 1) = .ok ([2], [some (-2)]) := by
  decide +kernel
example : particlesInertia 3 (fun _ c => inertia2 ((c : Rat) - 3 / 2) 0 1) ids [[2, 1], [4, 3, 0]] 1 =
    .ok [0, 5, 0] := by decide +kernel
/-- **C47 is violated**: if two ranks own cells at the same (largest) distance, on opposite sides of a
symmetric particle, the two remote points are added and the reported remote point is the centre. -/
theorem C47_violated : particlesRadii (1/1000) ext ids [[0, 1], [2, 3]] 1 = .ok ([2], [some 0]) ∧
    ext.norm 0 ≠ 2 := by decide +kernel
/-- ... and a cell whose barycentre coincides with the particle centre gives not-a-number. -/
theorem C47_nan : particlesRadii (1/1000) (⟨fun _ => (0:Rat), fun _ => (1:Rat), fun v => |v|⟩ : CellExt Rat Rat)
    ids [[0]] 1 = .ok ([1 / 2], [none]) := by decide +kernel
end Ex15

end Verif.Props
