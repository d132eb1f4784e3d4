/-
C73: pores.
-/
import Verif.Model.Pores
import Verif.Props.Flood
import Mathlib.Tactic.NormNum
import Mathlib.Tactic.Linarith
import Mathlib.Algebra.Order.Ring.Rat
import Mathlib.Algebra.Field.Rat

set_option linter.unusedSectionVars false

namespace Verif.Props
open Verif.Pores Verif.Spec

variable {K : Type} [Field K] [LinearOrder K] [IsStrictOrderedRing K]

/-- Active cell of the rank that belongs to the void: not outside of the box, all values of all blocks below the threshold
in magnitude. -/
def VoidCell (M : PMesh K) (thr : K) (c : Nat) : Prop :=
  M.children c = [] ∧ M.owned c = true ∧ M.outside c = false ∧ ∀ b ∈ M.values c, ∀ v ∈ b, |v| < thr

/-- Chain of void cells, each across a face of the previous one. -/
def VoidConnected (M : PMesh K) (thr : K) : Nat → Nat → Prop :=
  Relation.ReflTransGen fun a b =>
    Across (⟨M.children, M.owned, M.nbrs, fun _ => (0 : Nat)⟩ : FMesh Nat) a b ∧ VoidCell M thr b

/-- The flooding of the grain tracker applied to the indicator of the void. -/
def toF (M : PMesh K) (thr : K) : FMesh Nat :=
  ⟨M.children, M.owned, M.nbrs, fun c => if M.outside c = true ∨ solid M thr c = true then 0 else 1⟩

theorem linfty_lt (thr : K) (hthr : 0 < thr) (l : List K) : linfty l < thr ↔ ∀ v ∈ l, |v| < thr := by
  have key : ∀ (l : List K) (a : K), l.foldl (fun a v => max a |v|) a < thr ↔ a < thr ∧ ∀ v ∈ l, |v| < thr := by
    intro l
    induction l with
    | nil => simp
    | cons v l ih => intro a; rw [List.foldl_cons, ih]; simp [and_assoc]
  unfold linfty
  rw [key]
  simp [hthr]

theorem solid_false (M : PMesh K) (thr : K) (hthr : 0 < thr) (c : Nat) :
    solid M thr c = false ↔ ∀ b ∈ M.values c, ∀ v ∈ b, |v| < thr := by
  unfold solid
  rw [List.any_eq_false]
  simp only [decide_eq_true_eq, not_le]
  exact forall₂_congr fun b _ => linfty_lt thr hthr b

theorem inside_toF (M : PMesh K) (thr : K) (hthr : 0 < thr) (c : Nat) : Inside (toF M thr) 0 c ↔ VoidCell M thr c := by
  unfold Inside VoidCell toF
  simp only
  rw [← solid_false M thr hthr c]
  cases M.outside c <;> cases solid M thr c <;> simp

theorem leafOf_congr {A B : Type} (M : FMesh A) (N : FMesh B) (h : M.children = N.children) (a b : Nat) :
    LeafOf M a b → LeafOf N a b := by
  intro H
  induction H with
  | leaf h0 => exact LeafOf.leaf (by rw [← h]; exact h0)
  | child h0 _ ih => exact LeafOf.child (by rw [← h]; exact h0) ih

theorem across_congr {A B : Type} (M : FMesh A) (N : FMesh B) (h : M.children = N.children) (hn : M.nbrs = N.nbrs) (a b : Nat) :
    Across M a b ↔ Across N a b := by
  unfold Across
  rw [hn]
  exact ⟨fun ⟨n, h1, h2⟩ => ⟨n, h1, leafOf_congr M N h _ _ h2⟩, fun ⟨n, h1, h2⟩ => ⟨n, h1, leafOf_congr N M h.symm _ _ h2⟩⟩

theorem connected_toF (M : PMesh K) (thr : K) (hthr : 0 < thr) (a b : Nat) :
    Connected (toF M thr) 0 a b ↔ VoidConnected M thr a b := by
  unfold Connected VoidConnected
  have : (fun a b => Across (toF M thr) a b ∧ Inside (toF M thr) 0 b)
      = fun a b => Across (⟨M.children, M.owned, M.nbrs, fun _ => (0 : Nat)⟩ : FMesh Nat) a b ∧ VoidCell M thr b := by
    funext a b
    rw [inside_toF M thr hthr b, across_congr (toF M thr) ⟨M.children, M.owned, M.nbrs, fun _ => (0 : Nat)⟩ rfl rfl]
  rw [this]

/-- Both floodings do the same. -/
theorem floodPore_eq (M : PMesh K) (thr : K) (id fuel c : Nat) (ids : Nat → Option Nat) (mv : Nat) :
    floodPore M thr id fuel c ids = (flood (toF M thr) 0 id fuel c ⟨ids, mv⟩).map fun q => (q.1, q.2.ids) := by
  induction fuel generalizing c ids mv with
  | zero => rfl
  | succ fuel ih =>
    have fold : ∀ (l : List Nat) (n : Nat) (ids : Nat → Option Nat) (mv : Nat),
        l.foldlM (fun (p : Nat × (Nat → Option Nat)) ch =>
          (floodPore M thr id fuel ch p.2).map (fun q => (p.1 + q.1, q.2))) (n, ids)
        = (l.foldlM (fun (p : Nat × FloodState Nat) ch =>
          (flood (toF M thr) 0 id fuel ch p.2).map (fun q => (p.1 + q.1, q.2))) (n, ⟨ids, mv⟩)).map
            fun q => (q.1, q.2.ids) := by
      intro l
      induction l with
      | nil => intro n ids mv; rfl
      | cons x l ihl =>
        intro n ids mv
        rw [List.foldlM_cons, List.foldlM_cons]
        simp only
        rw [ih x ids mv]
        cases h : flood (toF M thr) 0 id fuel x ⟨ids, mv⟩ with
        | none => rfl
        | some q =>
          obtain ⟨k, st⟩ := q
          exact ihl (n + k) st.ids st.maxv
    rw [floodPore, flood]
    by_cases h1 : M.children c ≠ []
    · rw [if_pos h1, if_pos (show (toF M thr).children c ≠ [] from h1)]
      exact fold _ _ _ _
    · rw [if_neg h1, if_neg (show ¬ (toF M thr).children c ≠ [] from h1)]
      cases ho : M.owned c with
      | false =>
        rw [if_pos (Or.inl rfl), if_pos (show (toF M thr).owned c = false from ho)]
        rfl
      | true =>
        rw [if_neg (show ¬ (toF M thr).owned c = false by simp [toF, ho])]
        cases hb : M.outside c with
        | true =>
          rw [if_pos (Or.inr rfl)]
          by_cases hi : (ids c).isSome
          · rw [if_pos hi]; rfl
          · rw [if_neg hi, if_pos (by simp [toF, hb])]; rfl
        | false =>
          rw [if_neg (by simp)]
          by_cases hi : (ids c).isSome
          · rw [if_pos hi, if_pos hi]; rfl
          · rw [if_neg hi, if_neg hi]
            cases hs : solid M thr c with
            | true => rw [if_pos rfl, if_pos (by simp [toF, hs])]; rfl
            | false =>
              rw [if_neg (by simp), if_neg (by simp [toF, hs, hb])]
              exact fold _ _ _ _

theorem detectPores_eq (M : PMesh K) (thr : K) (fuel : Nat) (active : List Nat) :
    detectPores M thr fuel active
      = (detectLocal (toF M thr) 0 0 fuel active).map fun r => (r.ids, r.maxs.length) := by
  have key : ∀ (l : List Nat) (r : LocalParticles Nat × Nat),
      l.foldlM (fun (r : (Nat → Option Nat) × Nat) c => (floodPore M thr r.2 fuel c r.1).map fun q =>
        if q.1 > 0 then (q.2, r.2 + 1) else (q.2, r.2)) (r.1.ids, r.1.maxs.length)
      = (l.foldlM (detectStep (toF M thr) 0 0 fuel) r).map fun s => (s.1.ids, s.1.maxs.length) := by
    intro l
    induction l with
    | nil => intro r; rfl
    | cons x l ih =>
      intro r
      rw [List.foldlM_cons, List.foldlM_cons]
      simp only
      rw [floodPore_eq M thr r.1.maxs.length fuel x r.1.ids r.2]
      unfold detectStep
      cases h : flood (toF M thr) 0 r.1.maxs.length fuel x ⟨r.1.ids, r.2⟩ with
      | none => rfl
      | some q =>
        obtain ⟨k, st⟩ := q
        by_cases hk : k > 0
        · have := ih (⟨st.ids, r.1.maxs ++ [st.maxv]⟩, 0)
          simp only [List.length_append, List.length_cons, List.length_nil] at this
          simp only [Option.map_some, Option.bind_eq_bind, Option.bind_some, if_pos hk]
          exact this
        · have := ih (⟨st.ids, r.1.maxs⟩, st.maxv)
          simp only [Option.map_some, Option.bind_eq_bind, Option.bind_some, if_neg hk]
          exact this
  unfold detectPores detectLocal
  rw [Option.map_map]
  exact key active (⟨fun _ => none, []⟩, 0)

/-- On a mesh with mutual neighbours the local pores are the connected regions of the void: exactly the void cells get a
number, all numbers are used, and equal numbers mean connected through void cells. -/
theorem C73_regions (M : PMesh K) (thr : K) (hthr : 0 < thr) (active : List Nat) (height : Nat → Nat) (H : Nat)
    (hM : MeshOk (⟨M.children, M.owned, M.nbrs, fun _ => (0 : Nat)⟩ : FMesh Nat) active height H)
    (hsym : ∀ a b, VoidCell M thr a → VoidCell M thr b →
      Across (⟨M.children, M.owned, M.nbrs, fun _ => (0 : Nat)⟩ : FMesh Nat) a b →
      Across (⟨M.children, M.owned, M.nbrs, fun _ => (0 : Nat)⟩ : FMesh Nat) b a) {fuel : Nat}
    (hf : active.length * (H + 1) + H < fuel) :
    ∃ ids n, detectPores M thr fuel active = some (ids, n)
      ∧ (∀ c ∈ active, VoidCell M thr c ↔ ∃ k < n, ids c = some k)
      ∧ (∀ c, ¬ VoidCell M thr c ∨ c ∉ active → ids c = none)
      ∧ (∀ k < n, ∃ c ∈ active, ids c = some k)
      ∧ ∀ a ∈ active, ∀ b ∈ active, VoidCell M thr a → VoidCell M thr b → (ids a = ids b ↔ VoidConnected M thr a b) := by
  have hac : ∀ a b, Across (toF M thr) a b ↔ Across (⟨M.children, M.owned, M.nbrs, fun _ => (0 : Nat)⟩ : FMesh Nat) a b :=
    fun a b => across_congr (toF M thr) (⟨M.children, M.owned, M.nbrs, fun _ => (0 : Nat)⟩ : FMesh Nat) rfl rfl a b
  have hM' : MeshOk (toF M thr) active height H :=
    ⟨hM.nodup, hM.leaves, fun c hc b h => hM.reach c hc b ((hac c b).mp h), hM.depth, hM.bound⟩
  obtain ⟨r, e, R⟩ := C12_regions (M := toF M thr) (thr := 0) (lowest := 0) hM' (fun c _ => Nat.zero_le _)
    (fun a b ha hb h => (hac b a).mpr (hsym a b ((inside_toF M thr hthr a).mp ha) ((inside_toF M thr hthr b).mp hb) ((hac a b).mp h)))
    hf
  refine ⟨r.ids, r.maxs.length, by rw [detectPores_eq, e]; rfl, ?_, ?_, R.used, ?_⟩
  · intro c hc
    rw [← inside_toF M thr hthr c]
    exact R.inside c hc
  · intro c h
    refine R.outside c ?_
    rw [inside_toF M thr hthr c]
    exact h
  · intro a ha b hb va vb
    rw [← connected_toF M thr hthr]
    exact R.same a ha b hb ((inside_toF M thr hthr a).mpr va) ((inside_toF M thr hthr b).mpr vb)

/-! ### Contours -/

/-- Pores that touch the boundary of the domain. -/
def TouchesBoundary (ranks : List (List PCell)) (p : Nat) : Prop :=
  ∃ c ∈ ranks.flatten, c.pore = some p ∧ c.atBoundary = true

theorem mem_boundaryPores (ranks : List (List PCell)) (p : Nat) : p ∈ boundaryPores ranks ↔ TouchesBoundary ranks p := by
  unfold boundaryPores TouchesBoundary
  simp only [List.mem_flatMap, List.mem_filterMap, List.mem_flatten]
  constructor
  · rintro ⟨cells, hcs, c, hc, h⟩
    split at h
    · rename_i hb
      exact ⟨c, ⟨cells, hcs, hc⟩, h, hb⟩
    · cases h
  · rintro ⟨c, ⟨cells, hcs, hc⟩, h, hb⟩
    exact ⟨cells, hcs, c, hc, by rw [if_pos hb]; exact h⟩

theorem writes_iff (smooth : Bool) (ranks : List (List PCell)) (cells : List PCell) (dof : Nat) :
    writes smooth (boundaryPores ranks) cells dof = true ↔
      ∃ c ∈ cells, ∃ p, c.pore = some p ∧ dof ∈ c.dofs ∧ (TouchesBoundary ranks p ↔ smooth = true) := by
  unfold writes
  rw [List.any_eq_true]
  refine exists_congr fun c => and_congr_right fun _ => ?_
  cases h : c.pore with
  | none => simp
  | some p =>
    simp only [Bool.and_eq_true, beq_iff_eq, Option.some.injEq, exists_eq_left', List.contains_iff_mem]
    rw [← mem_boundaryPores]
    cases smooth <;> by_cases hp : p ∈ boundaryPores ranks <;> simp [hp]

/-- The coarse data are one at the degrees of freedom of the cells of closed pores and zero elsewhere, however the cells
are distributed. -/
theorem C73_coarse (ranks : List (List PCell)) (dof : Nat) :
    (coarseData ranks dof : K) = open Classical in
      if ∃ c ∈ ranks.flatten, ∃ p, c.pore = some p ∧ dof ∈ c.dofs ∧ ¬ TouchesBoundary ranks p then 1 else 0 := by
  classical
  have hsum : ∀ (l : List (List PCell)) (a : K), 0 ≤ a →
      (a ≤ l.foldl (fun a cells => a + (if writes false (boundaryPores ranks) cells dof then 1 else 0)) a)
      ∧ ((∃ cells ∈ l, writes false (boundaryPores ranks) cells dof = true) →
          1 ≤ l.foldl (fun a cells => a + (if writes false (boundaryPores ranks) cells dof then 1 else 0)) a)
      ∧ ((¬ ∃ cells ∈ l, writes false (boundaryPores ranks) cells dof = true) →
          l.foldl (fun a cells => a + (if writes false (boundaryPores ranks) cells dof then 1 else 0)) a = a) := by
    intro l
    induction l with
    | nil => intro a _; simp
    | cons x l ih =>
      intro a ha
      rw [List.foldl_cons]
      by_cases hx : writes false (boundaryPores ranks) x dof = true
      · rw [if_pos hx]
        obtain ⟨h1, -, -⟩ := ih (a + 1) (by linarith [show (0 : K) < 1 from one_pos])
        have h01 : (0 : K) < 1 := one_pos
        refine ⟨le_trans (by linarith) h1, fun _ => le_trans (by linarith) h1, fun h => absurd ⟨x, List.mem_cons_self, hx⟩ h⟩
      · rw [if_neg hx]
        obtain ⟨h1, h2, h3⟩ := ih (a + 0) (by linarith)
        rw [add_zero] at h1 h2 h3 ⊢
        refine ⟨h1, ?_, ?_⟩
        · rintro ⟨y, hy, hw⟩
          rcases List.mem_cons.mp hy with rfl | hy
          · exact absurd hw hx
          · exact h2 ⟨y, hy, hw⟩
        · intro h
          exact h3 fun ⟨y, hy, hw⟩ => h ⟨y, List.mem_cons_of_mem _ hy, hw⟩
  have hex : (∃ cells ∈ ranks, writes false (boundaryPores ranks) cells dof = true)
      ↔ ∃ c ∈ ranks.flatten, ∃ p, c.pore = some p ∧ dof ∈ c.dofs ∧ ¬ TouchesBoundary ranks p := by
    constructor
    · rintro ⟨cells, hcs, hw⟩
      obtain ⟨c, hc, p, h1, h2, h3⟩ := (writes_iff false ranks cells dof).mp hw
      exact ⟨c, List.mem_flatten.mpr ⟨cells, hcs, hc⟩, p, h1, h2, by simpa using h3⟩
    · rintro ⟨c, hc, p, h1, h2, h3⟩
      obtain ⟨cells, hcs, hc⟩ := List.mem_flatten.mp hc
      exact ⟨cells, hcs, (writes_iff false ranks cells dof).mpr ⟨c, hc, p, h1, h2, by simpa using h3⟩⟩
  obtain ⟨-, s2, s3⟩ := hsum ranks 0 (le_refl _)
  unfold coarseData
  dsimp only
  by_cases h : ∃ cells ∈ ranks, writes false (boundaryPores ranks) cells dof = true
  · rw [if_pos (hex.mp h), min_eq_right (s2 h)]
  · rw [if_neg (fun q => h (hex.mpr q)), s3 h, min_eq_left zero_le_one]

/-- The smooth data of a serial run: zero in the open pores, one minus the sum of the blocks elsewhere. -/
theorem C73_smooth_partial (cells : List PCell) (total : Nat → K) (dof : Nat) :
    smoothData [cells] total 0 dof = open Classical in
      if ∃ c ∈ cells, ∃ p, c.pore = some p ∧ dof ∈ c.dofs ∧ TouchesBoundary [cells] p then 0 else 1 - total dof := by
  classical
  unfold smoothData
  dsimp only
  have hw := writes_iff true [cells] cells dof
  have h0 : ([cells] : List (List PCell)).getD 0 [] = cells := rfl
  rw [h0]
  by_cases h : writes true (boundaryPores [cells]) cells dof = true
  · rw [if_pos h, if_pos]
    obtain ⟨c, hc, p, h1, h2, h3⟩ := hw.mp h
    exact ⟨c, hc, p, h1, h2, by simpa using h3⟩
  · rw [if_neg h, if_neg]
    · ring
    · rintro ⟨c, hc, p, h1, h2, h3⟩
      exact h (hw.mpr ⟨c, hc, p, h1, h2, by simpa using h3⟩)

/-- With several ranks the smooth data differ between the ranks: the zeros are not exchanged. -/
theorem C73_smooth_violated : ∃ (ranks : List (List PCell)) (dof : Nat),
    (smoothData ranks (fun _ => (0 : ℚ)) 0 dof) = 0 ∧ smoothData ranks (fun _ => (0 : ℚ)) 1 dof = 1
      ∧ (∃ c ∈ ranks.getD 0 [], dof ∈ c.dofs) ∧ ∃ c ∈ ranks.getD 1 [], dof ∈ c.dofs := by
  refine ⟨[[⟨some 0, true, [0, 1]⟩], [⟨none, true, [1, 2]⟩]], 1, by decide +kernel, by decide +kernel,
    ⟨_, List.mem_cons_self, by simp⟩, ⟨_, List.mem_cons_self, by simp⟩⟩

namespace Ex73
/-- four intervals, the outer ones solid -/
def M : PMesh ℚ := ⟨fun _ => [], fun _ => true, fun c => if c = 0 then [1] else if c = 3 then [2] else [c - 1, c + 1],
  fun _ => false, fun c => if c = 1 ∨ c = 2 then [[1 / 10, 0], [0, -1 / 5]] else [[1, 1], [0, 0]]⟩
example : (detectPores M (4 / 5) 20 [0, 1, 2, 3]).map (fun r => ((List.range 4).map r.1, r.2))
    = some ([none, some 0, some 0, none], 1) := by decide +kernel
example : (coarseData [[⟨some 0, false, [0, 1]⟩], [⟨some 0, false, [1, 2]⟩, ⟨some 1, true, [2, 3]⟩]] 1 : ℚ) = 1 := by decide +kernel
example : (coarseData [[⟨some 0, false, [0, 1]⟩], [⟨some 0, false, [1, 2]⟩, ⟨some 1, true, [2, 3]⟩]] 3 : ℚ) = 0 := by decide +kernel
end Ex73

end Verif.Props
