/-
C147: files with surfaces and with grains as spheres.
-/
import Verif.Lemmas.Surfaces
import Verif.Props.OutTrack

namespace Verif.Props

open Verif.Spec Verif.Cycle Verif.Cycle.Spec Verif.OutTrack Verif.OutTrack.Spec Verif.Surfaces Verif.Surfaces.Spec

section
variable {P K Cell Q : Type} {steps : Nat} {filter : Option (Mesh Cell Q → Mesh Cell Q)} {mesh coarse used : Mesh Cell Q} {cube : Q} {nBlocks : Nat}
  {st : Cycle.State P K} {ghosted : Bool} {f : List (Elem Q)}

/-- The file with the contours of the grains has every piece of every order parameter in every owned cell exactly once, with its order parameter and
rank, for all numbers of ranks; what else it has is one small cube, with numbers -1, for every rank without pieces. -/
theorem C147_pieces (hu : Uses steps filter mesh coarse used) (hs : Sound used)
    (h : (writeContours steps filter mesh coarse cube nBlocks st ghosted).1 = .ok f) :
    ((f.filter fun e => decide (0 ≤ e.op)).map fun e => (e.piece, e.op, e.rank)).Perm (expected used.mc nBlocks used.ranks) ∧
    (∀ e ∈ f, e.op < 0 → ∃ owned, used.ranks[e.rank]? = some owned ∧ Bare used.mc nBlocks owned ∧ e = ⟨cube, -1, -1, e.rank⟩) ∧
    ∀ r owned, used.ranks[r]? = some owned → Bare used.mc nBlocks owned → (f.filter fun e => decide (e.rank = r)) = [⟨cube, -1, -1, r⟩] := by
  obtain ⟨-, rfl⟩ := (write_spec hu hs f).1 h
  generalize htt : (if steps = 0 then some st else none) = t
  refine ⟨?_, ?_, ?_⟩
  · rw [filter_flatMap', map_flatMap']
    refine perm_flatMap _ fun o => ?_
    rw [filter_pieces, piecesOf]
    simp only [map_flatMap', List.map_map, Function.comp_def]
    exact flatMap_swap _ _ _
  · intro e he hop
    obtain ⟨o, ho, he⟩ := List.mem_flatMap.1 he
    unfold orDummy at he
    split at he
    · rename_i hb
      rw [List.mem_singleton] at he
      subst he
      refine ⟨o.1, ?_, piecesOf_nil.1 (List.isEmpty_iff.1 hb), rfl⟩
      exact List.mem_zipIdx_iff_getElem?.1 ho
    · obtain ⟨b, -, c, -, q, -, rfl⟩ := mem_piecesOf.1 he
      simp at hop
      omega
  · intro r owned hr hb
    have key : ∀ (l : List (List Cell)) (k : Nat), ((l.zipIdx k).flatMap fun o => orDummy cube o.2 (piecesOf t used.index used.mc nBlocks o.2 o.1)).filter
        (fun e => decide (e.rank = r)) = if k ≤ r ∧ r < k + l.length then orDummy cube r (piecesOf t used.index used.mc nBlocks r (l.getD (r - k) [])) else [] := by
      intro l
      induction l with
      | nil => intro k; rw [if_neg (by simp)]; simp
      | cons a l ih =>
        intro k
        have hall : ∀ e ∈ orDummy cube k (piecesOf t used.index used.mc nBlocks k a), e.rank = k := by
          intro e he
          unfold orDummy at he
          split at he
          · rw [List.mem_singleton] at he; rw [he]
          · obtain ⟨b, -, c, -, q, -, rfl⟩ := mem_piecesOf.1 he; rfl
        rw [List.zipIdx_cons, List.flatMap_cons, List.filter_append, ih (k + 1)]
        by_cases hk : k = r
        · subst hk
          rw [List.filter_eq_self.2 (fun e he => by simpa using hall e he), if_neg (by omega), if_pos (by simp)]
          simp
        · rw [List.filter_eq_nil_iff.2 (fun e he => by simp [hall e he, hk])]
          by_cases hc : k + 1 ≤ r ∧ r < k + 1 + l.length
          · rw [if_pos hc, if_pos (by simp only [List.length_cons]; omega), show r - k = (r - (k + 1)) + 1 by omega]
            simp
          · rw [if_neg hc, if_neg (by simp only [List.length_cons]; omega)]
            rfl
    rw [key used.ranks 0]
    have hlt : r < used.ranks.length := (List.getElem?_eq_some_iff.1 hr).1
    rw [if_pos (by omega), show used.ranks.getD (r - 0) [] = owned by simp [List.getD, hr], piecesOf_nil.2 hb]
    rfl

/-- The file is written exactly if the tracker answers for all cells with a piece; without coarsening this is asked, with coarsening it is not, so
that the file is always written. -/
theorem C147_written (hu : Uses steps filter mesh coarse used) (hs : Sound used) :
    (∃ f, (writeContours steps filter mesh coarse cube nBlocks st ghosted).1 = .ok f) ↔ (steps = 0 → Answered used nBlocks (number st)) := by
  constructor
  · rintro ⟨f, h⟩ hz
    obtain ⟨h1, -⟩ := (write_spec hu hs f).1 h
    rw [if_pos hz] at h1
    exact h1
  · intro h
    refine ⟨_, (write_spec hu hs _).2 ⟨?_, rfl⟩⟩
    by_cases hz : steps = 0
    · rw [if_pos hz]; exact h hz
    · rw [if_neg hz]
      exact fun _ _ _ _ _ _ _ => ⟨some 0, rfl⟩

/-- The ghost values of the vector are afterwards as they were before, if the file was written; otherwise the vector keeps them. -/
theorem C147_ghosts :
    ((∃ f, (writeContours steps filter mesh coarse cube nBlocks st ghosted).1 = .ok f) →
      (writeContours steps filter mesh coarse cube nBlocks st ghosted).2 = ghosted) ∧
    ((∀ f, (writeContours steps filter mesh coarse cube nBlocks st ghosted).1 ≠ .ok f) →
      (writeContours steps filter mesh coarse cube nBlocks st ghosted).2 = true) :=
  ⟨fun ⟨f, h⟩ => write_ghost.1 f h, write_ghost.2⟩

/-- In all simulations and for all ranks: without coarsening the number written with a piece is that of a grain in its order parameter, or the invalid
number if the area is not a grain, or 0 if the cell has no particle or there are no grains at all.
Missing: with coarsening all numbers are 0, `C147_coarse_violated`; a piece without grain is not distinguished from grain 0. -/
theorem C147_numbers_partial [Field K] [LinearOrder K] {c : Conf P K} {inter : P × K → P × K → Prop}
    (hq : QueryContract inter c.query) (hcc : CCContract c.cc) (hcol : ColorContract c.reassign.color)
    (hsort : SortContract c.reassign.sortBy) (hd : c.reassign.diag = true) {adv : Bool} (hadv : adv = true → c.again = true)
    {st0 st st' : Cycle.State P K} (h0 : Runs c st0) {l : List (Op P K)} (hf : FitAll c adv l st0) (hl : ops c adv l st0 = .ok st)
    {a : Ask} (ha : (a.contours || a.contoursTex || a.stats || a.coordination) = true) {s : Seen P K} (hfit : Fit c st (.output a s))
    (hlook : look c adv a s st = .ok st') (hu : Uses 0 filter mesh coarse used) (hs : Sound used)
    (h : (writeContours 0 filter mesh coarse cube nBlocks st' ghosted).1 = .ok f) {e : Elem Q} (he : e ∈ f) (hop : 0 ≤ e.op) :
    ∃ owned, used.ranks[e.rank]? = some owned ∧ ∃ cell ∈ owned, ∃ b < nBlocks, e.op = b ∧ e.piece ∈ used.mc b cell ∧
      ((∃ (g : Nat) (R : Grain P K), e.grain = g ∧ st'.tr.grains.get? g = some R ∧ R.op = b) ∨
       (e.grain = invalidUInt ∧ ∃ sg, grainAt st' b (used.index cell) = .ok (some (none, sg))) ∨
       (e.grain = 0 ∧ (st'.tr.grains = [] ∨ grainAt st' b (used.index cell) = .ok none))) := by
  obtain ⟨hans, rfl⟩ := (write_spec hu hs f).1 h
  rw [if_pos rfl] at hans he
  obtain ⟨o, ho, he⟩ := List.mem_flatMap.1 he
  unfold orDummy at he
  split at he
  · rw [List.mem_singleton] at he
    rw [he] at hop
    simp at hop
  · obtain ⟨b, hb, cell, hcell, q, hq', rfl⟩ := mem_piecesOf.1 he
    have hmem := List.mem_zipIdx_iff_getElem?.1 ho
    refine ⟨o.1, hmem, cell, hcell, b, hb, rfl, hq', ?_⟩
    obtain ⟨g, hg⟩ := hans o.1 (List.mem_of_getElem? hmem) cell hcell b hb (List.ne_nil_of_mem hq')
    have hlab : lab (numberOf (some st') b (used.index cell)) = ((g.getD invalidUInt : Nat) : Int) := by rw [hg]; rfl
    have hnum : number st' b (used.index cell) = .ok g := hg
    simp only [hlab]
    obtain ⟨-, h2⟩ := C142_number hq hcc hcol hsort hd hadv h0 hf hl ha hfit hlook b (used.index cell)
    cases g with
    | some g =>
      rcases h2 g hnum with ⟨R, e1, e2⟩ | ⟨rfl, e2⟩
      · exact .inl ⟨g, R, rfl, e1, e2⟩
      · exact .inr (.inr ⟨rfl, e2⟩)
    | none =>
      refine .inr (.inl ⟨rfl, ?_⟩)
      unfold number at hnum
      split at hnum
      · simp at hnum
      · unfold label at hnum
        cases hx : grainAt st' b (used.index cell) with
        | ub => rw [hx] at hnum; simp [Res.bind] at hnum
        | exc e => rw [hx] at hnum; simp [Res.bind] at hnum
        | ok e =>
          rw [hx] at hnum
          cases e with
          | none => simp [Res.bind] at hnum
          | some e =>
            obtain ⟨g', sg⟩ := e
            simp only [Res.bind, Res.ok.injEq] at hnum
            exact ⟨sg, by rw [hnum]⟩

/-- With coarsening every piece has the number 0, whatever the grains are. -/
theorem C147_coarse (hu : Uses steps filter mesh coarse used) (hs : Sound used) (hz : steps ≠ 0)
    (h : (writeContours steps filter mesh coarse cube nBlocks st ghosted).1 = .ok f) {e : Elem Q} (he : e ∈ f) (hop : 0 ≤ e.op) : e.grain = 0 := by
  obtain ⟨-, rfl⟩ := (write_spec hu hs f).1 h
  rw [if_neg hz] at he
  obtain ⟨o, ho, he⟩ := List.mem_flatMap.1 he
  unfold orDummy at he
  split at he
  · rw [List.mem_singleton] at he
    rw [he] at hop
    simp at hop
  · obtain ⟨b, hb, cell, hcell, q, hq', rfl⟩ := mem_piecesOf.1 he
    rfl

/-- Any quantity added up over the file with the surface of the concentration is that of all pieces plus that of the small cube for every rank
without surface; so the area of the file depends on how the cells are distributed. -/
theorem C147_surface {M : Type} [AddCommMonoid M] (μ : Q → M) (mc : Cell → List Q) (cube : Q) (ranks : List (List Cell)) :
    ((writeSurface mc cube 0 ranks).map fun e => μ e.1).sum =
      ((ranks.flatten.flatMap mc).map μ).sum + (ranks.countP fun o => (o.flatMap mc).isEmpty) • μ cube := by
  rw [sum_surface]
  congr 3
  rw [List.flatten_eq_flatMap, List.flatMap_assoc]
  rfl

/-- The file with the spheres has each segment once for every rank, so it is right exactly on one rank (or without grains). -/
theorem C147_spheres_partial [DecidableEq P] [DecidableEq K] (n : Nat) (grains : OMap (Grain P K)) :
    (∀ x, (writeSpheres n grains).count x = n * (spheres grains).count x) ∧
    ((writeSpheres n grains).Perm (spheres grains) ↔ n = 1 ∨ ∀ g R, (g, R) ∈ grains → R.segments = []) := by
  refine ⟨count_spheres n grains, ?_⟩
  have hnil : spheres grains = [] ↔ ∀ g R, (g, R) ∈ grains → R.segments = [] := by
    unfold spheres
    rw [List.flatMap_eq_nil_iff]
    constructor
    · intro h g R hg
      simpa using h (g, R) hg
    · intro h e he
      simp [h e.1 e.2 he]
  rw [← hnil, List.perm_iff_count]
  simp only [count_spheres]
  constructor
  · intro h
    by_cases hs : spheres grains = []
    · exact .inr hs
    · obtain ⟨x, hx⟩ := List.exists_mem_of_ne_nil _ hs
      have hp := List.count_pos_iff.2 hx
      refine .inl (Nat.eq_of_mul_eq_mul_right hp ?_)
      rw [h x, Nat.one_mul]
  · rintro (h | h)
    · intro x; rw [h, Nat.one_mul]
    · intro x; rw [h]; simp

end

namespace Ex147

open Ex06 Ex137 Ex142

/-- Two order parameters, a grain in each; three cells on three ranks: pieces of both in the first, of the second in the second, none in the third. -/
def mesh3 : Mesh Nat Char :=
  ⟨true, [[0], [1], [2]], id, fun b c => if c = 0 then (if b = 0 then ['a'] else ['b', 'c']) else if c = 1 then (if b = 1 then ['d'] else []) else []⟩

/-- A tracker with grain 0 in the first and grain 7 in the second order parameter. -/
def tracked : Cycle.State ℚ ℚ :=
  ⟨⟨[(0, ⟨0, 0, 0, [segOf 0], 1, 1, .none, 1, 1⟩), (7, ⟨7, 1, 1, [segOf 5, segOf 9], 1, 1, .none, 1, 1⟩)], [], [[(some 0, 0)], [(some 7, 0), (some 7, 1)]]⟩,
    [0, 1], [[some 0, none, none], [some 0, some 1, none]], 2⟩
where segOf (x : ℚ) : Segment ℚ ℚ := ⟨x, 1, 1, 1, true⟩

example : Sound mesh3 ∧ Uses 0 none mesh3 mesh3 mesh3 := by
  refine ⟨fun h => by simp [mesh3] at h, fun _ _ => rfl, fun _ _ => rfl, fun f h => by simp at h⟩

/-- All pieces with the right numbers; the third rank writes the cube. -/
example : (writeContours 0 none mesh3 mesh3 'X' 2 tracked false).1 =
    .ok [⟨'a', 0, 0, 0⟩, ⟨'b', 7, 1, 0⟩, ⟨'c', 7, 1, 0⟩, ⟨'d', 7, 1, 1⟩, ⟨'X', -1, -1, 2⟩] := by decide +kernel

/-- With coarsening the two grains have the same number. -/
theorem C147_coarse_violated : (writeContours 1 none mesh3 mesh3 'X' 2 tracked false).1 =
    .ok [⟨'a', 0, 0, 0⟩, ⟨'b', 0, 1, 0⟩, ⟨'c', 0, 1, 0⟩, ⟨'d', 0, 1, 1⟩, ⟨'X', -1, -1, 2⟩] := by decide +kernel

/-- More order parameters than the tracker has seen: nothing is written, and the vector keeps its ghost values. -/
theorem C147_ghosts_violated : writeContours 0 none { mesh3 with mc := fun _ _ => ['a'] } mesh3 'X' 3 tracked false = (.exc .assertThrow, true) := by
  decide +kernel

/-- The same surface on one rank and on two: the second file has the cube as well, and nothing marks it. -/
theorem C147_surface_violated :
    writeSurface (fun c : Nat => if c = 0 then ['a'] else []) 'X' 0 [[0, 1]] = [('a', 0)] ∧
    writeSurface (fun c : Nat => if c = 0 then ['a'] else []) 'X' 0 [[0], [1]] = [('a', 0), ('X', 1)] := by decide +kernel

/-- Two ranks: every sphere twice. -/
theorem C147_spheres_violated : writeSpheres 2 tracked.tr.grains =
    [(0, 0, 1, 0), (5, 7, 1, 1), (9, 7, 1, 1), (0, 0, 1, 0), (5, 7, 1, 1), (9, 7, 1, 1)] ∧
    writeSpheres 1 tracked.tr.grains = [(0, 0, 1, 0), (5, 7, 1, 1), (9, 7, 1, 1)] := by decide +kernel

/-- A state reached in a simulation: output after the initial run, the number of the piece is that of the grain. -/
example : ((runTracker (Ex137.conf false) true seen seen' (start 1)).bind fun st => (look (Ex137.conf false) false stats seen' st).bind fun st' =>
      (writeContours 0 none ⟨true, [[3]], id, fun b _ => if b = 1 then ['a'] else []⟩ mesh3 'X' 2 st' false).1) = .ok [⟨'a', 1, 1, 0⟩] := by decide +kernel

end Ex147

end Verif.Props
