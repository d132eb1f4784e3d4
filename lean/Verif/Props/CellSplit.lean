/-
C165: splitting and merging of vectors cell by cell.
-/
import Verif.Model.CellSplit
import Verif.Spec.CellSplit
import Mathlib.Algebra.Order.Field.Rat

namespace Verif.Props

open Verif.CellSplit Verif.CellSplit.Spec

variable {Cell N K : Type}

private theorem puts_in (W : List (Nat × K)) (f : Nat → K) (k : Nat) (y : K) (h : ∀ p ∈ W, p.1 = k → p.2 = y)
    (h' : f k = y ∨ ∃ p ∈ W, p.1 = k) : W.foldl put f k = y := by
  induction W generalizing f with
  | nil => simpa using h'
  | cons p W ih =>
    refine ih _ (fun q hq => h q (by simp [hq])) ?_
    by_cases hp : p.1 = k
    · left; simp [put, hp, h p (by simp) hp]
    · rcases h' with h' | ⟨q, hq, hk⟩
      · left; simp [put, Ne.symm hp, h']
      · rcases List.mem_cons.1 hq with rfl | hq
        · exact absurd hk hp
        · exact .inr ⟨q, hq, hk⟩

private theorem puts_out (W : List (Nat × K)) (f : Nat → K) (k : Nat) (h : ∀ p ∈ W, p.1 ≠ k) : W.foldl put f k = f k := by
  induction W generalizing f with
  | nil => rfl
  | cons p W ih =>
    rw [List.foldl_cons, ih _ fun q hq => h q (by simp [hq])]
    simp [put, Ne.symm (h p (by simp))]

private theorem mapM_ok {A B : Type} (l : List A) (f : A → Res B) (g : A → B) (h : ∀ a ∈ l, f a = .ok (g a)) : l.mapM f = .ok (l.map g) := by
  induction l with
  | nil => rfl
  | cons a l ih => rw [List.mapM_cons, h a (by simp), ih fun b hb => h b (by simp [hb])]; rfl

private theorem foldlM_puts {A : Type} (l : List A) (f : (Nat → K) → A → Res (Nat → K)) (W : A → List (Nat × K))
    (h : ∀ a ∈ l, ∀ s, f s a = .ok ((W a).foldl put s)) (s : Nat → K) : l.foldlM f s = .ok ((l.flatMap W).foldl put s) := by
  induction l generalizing s with
  | nil => rfl
  | cons a l ih =>
    rw [List.foldlM_cons, h a (by simp), List.flatMap_cons, List.foldl_append]
    exact ih (fun b hb => h b (by simp [hb])) _

/-- Splitting succeeds; the part holds the field of the full vector, other entries stay as they are. -/
theorem C165_split {S0 S : Space Cell} {node : Cell → Nat → N} (h0 : Numbered S0 node) (h : Numbered S node) {off : Nat} (hn : S.nNode = S0.nNode)
    (ho : S.nComp + off ≤ S0.nComp) {cells : List Cell} {vec : Nat → K} {field : Nat → N → K} (hv : Holds S0 node cells 0 vec field) (out : Nat → K) :
    ∃ r, split S0 S off vec out cells = .ok r ∧ Holds S node cells off r field ∧ ∀ k, Elsewhere S cells k → r k = out k := by
  let W : Cell → List (Nat × K) := fun x => (List.range S.n).map fun i => (S.dof x i, vec (S0.dof x (S0.toSys ((S.ofSys i).1 + off) (S.ofSys i).2)))
  have hc : ∀ x ∈ cells, ∀ s, splitCell S0 S off vec s x = .ok ((W x).foldl put s) := by
    intro x _ s
    unfold splitCell
    dsimp only
    rw [mapM_ok (g := fun i => (S.dof x i, vec (S0.dof x (S0.toSys ((S.ofSys i).1 + off) (S.ofSys i).2))))]
    · rfl
    · intro i hi
      obtain ⟨a, b, _⟩ := h.of i (List.mem_range.1 hi)
      rw [CellSplit.read, if_pos (h0.to _ _ (by omega) (by omega)).1]
      rfl
  refine ⟨_, foldlM_puts cells _ W hc out, fun x hx c j hc' hj => ?_, fun k hk => ?_⟩
  · refine puts_in _ _ _ _ ?_ (.inr ?_)
    · intro p hp hk
      obtain ⟨y, hy, hp⟩ := List.mem_flatMap.1 hp
      obtain ⟨i, hi, rfl⟩ := List.mem_map.1 hp
      obtain ⟨a, b, e⟩ := h.of i (List.mem_range.1 hi)
      dsimp only at hk ⊢
      rw [← e] at hk
      obtain ⟨e1, e2⟩ := (h.same _ _ _ _ _ _ a hc' b hj).1 hk
      rw [hv y hy _ _ (by omega) (by omega), e1, e2]
      rfl
    · refine ⟨_, List.mem_flatMap.2 ⟨x, hx, List.mem_map.2 ⟨S.toSys c j, List.mem_range.2 (h.to c j hc' hj).1, rfl⟩⟩, rfl⟩
  · refine puts_out _ _ _ fun p hp => ?_
    obtain ⟨y, hy, hp⟩ := List.mem_flatMap.1 hp
    obtain ⟨i, hi, rfl⟩ := List.mem_map.1 hp
    exact hk y hy i (List.mem_range.1 hi)

/-- A part that has more components than are left is not split off: an index of the cell is out of range. -/
theorem C165_split_undefined {S0 S : Space Cell} {off : Nat} {x : Cell} {cells : List Cell} {vec out : Nat → K} {i : Nat} (hi : i < S.n)
    (h : S0.n ≤ S0.toSys ((S.ofSys i).1 + off) (S.ofSys i).2) : split S0 S off vec out (x :: cells) = .ub := by
  have key : ∀ l : List Nat, i ∈ l → (l.mapM fun i => do
      let y ← CellSplit.read S0.n (fun i => vec (S0.dof x i)) (S0.toSys ((S.ofSys i).1 + off) (S.ofSys i).2)
      (.ok (S.dof x i, y) : Res (Nat × K))) = .ub := by
    intro l hl
    induction l with
    | nil => simp at hl
    | cons a l ih =>
      rw [List.mapM_cons]
      rcases List.mem_cons.1 hl with rfl | hl
      · rw [CellSplit.read, if_neg (by omega)]; rfl
      · rw [ih hl]
        unfold CellSplit.read
        split <;> rfl
  unfold split
  rw [List.foldlM_cons]
  unfold splitCell
  dsimp only
  rw [key _ (List.mem_range.2 hi)]
  rfl

private theorem readPart_ok {S0 : Space Cell} {node : Cell → Nat → N} (h0 : Numbered S0 node) (p : Part Cell K) (h : Numbered p.space node)
    (hn : p.space.nNode = S0.nNode) (ho : p.space.nComp + p.off ≤ S0.nComp) (x : Cell) (l : Nat → K) :
    readPart S0 x l p = .ok (((List.range p.space.n).map fun i =>
      (S0.toSys ((p.space.ofSys i).1 + p.off) (p.space.ofSys i).2, p.vec (p.space.dof x i))).foldl put l) := by
  unfold readPart
  rw [foldlM_puts (W := fun i => [(S0.toSys ((p.space.ofSys i).1 + p.off) (p.space.ofSys i).2, p.vec (p.space.dof x i))])]
  · rw [← List.map_eq_flatMap]
  · intro i hi s
    obtain ⟨a, b, _⟩ := h.of i (List.mem_range.1 hi)
    rw [write, if_pos (h0.to _ _ (by omega) (by omega)).1]
    rfl

/-- Merging succeeds; if the parts hold the field and have all components, the full vector holds it. -/
theorem C165_merge [Zero K] {S0 : Space Cell} {node : Cell → Nat → N} (h0 : Numbered S0 node) {parts : List (Part Cell K)} {cells : List Cell} {field : Nat → N → K}
    (h : ∀ p ∈ parts, Numbered p.space node ∧ p.space.nNode = S0.nNode ∧ p.space.nComp + p.off ≤ S0.nComp ∧ Holds p.space node cells p.off p.vec field)
    (hall : ∀ c, c < S0.nComp → ∃ p ∈ parts, p.off ≤ c ∧ c < p.space.nComp + p.off) (out : Nat → K) :
    ∃ r, merge S0 parts out cells = .ok r ∧ Holds S0 node cells 0 r field ∧ ∀ k, Elsewhere S0 cells k → r k = out k := by
  let L : Cell → List (Nat × K) := fun x => parts.flatMap fun p => (List.range p.space.n).map fun i =>
    (S0.toSys ((p.space.ofSys i).1 + p.off) (p.space.ofSys i).2, p.vec (p.space.dof x i))
  have hL : ∀ x ∈ cells, ∀ c j, c < S0.nComp → j < S0.nNode → (L x).foldl put (fun _ => 0) (S0.toSys c j) = field c (node x j) := by
    intro x hx c j hc hj
    refine puts_in _ _ _ _ ?_ (.inr ?_)
    · intro q hq hk
      obtain ⟨p, hp, hq⟩ := List.mem_flatMap.1 hq
      obtain ⟨i, hi, rfl⟩ := List.mem_map.1 hq
      obtain ⟨g1, g2, g3, g4⟩ := h p hp
      obtain ⟨a, b, e⟩ := g1.of i (List.mem_range.1 hi)
      dsimp only at hk ⊢
      have t := (h0.to ((p.space.ofSys i).1 + p.off) (p.space.ofSys i).2 (by omega) (by omega)).2
      rw [hk, (h0.to c j hc hj).2, Prod.mk.injEq] at t
      have := g4 x hx _ _ a b
      rw [e, ← t.1, ← t.2] at this
      exact this
    · obtain ⟨p, hp, h1, h2⟩ := hall c hc
      obtain ⟨g1, g2, g3, g4⟩ := h p hp
      obtain ⟨t1, t2⟩ := g1.to (c - p.off) j (by omega) (by omega)
      refine ⟨_, List.mem_flatMap.2 ⟨p, hp, List.mem_map.2 ⟨p.space.toSys (c - p.off) j, List.mem_range.2 t1, rfl⟩⟩, ?_⟩
      dsimp only
      rw [t2]
      dsimp only
      rw [Nat.sub_add_cancel h1]
  let W : Cell → List (Nat × K) := fun x => (List.range S0.n).map fun i => (S0.dof x i, (L x).foldl put (fun _ => 0) i)
  have hc : ∀ x ∈ cells, ∀ s, mergeCell S0 parts s x = .ok ((W x).foldl put s) := by
    intro x _ s
    unfold mergeCell
    rw [foldlM_puts parts (readPart S0 x) _ fun p hp l => readPart_ok h0 p (h p hp).1 (h p hp).2.1 (h p hp).2.2.1 x l]
    rfl
  refine ⟨_, foldlM_puts cells _ W hc out, fun x hx c j hc' hj => ?_, fun k hk => ?_⟩
  · refine puts_in _ _ _ _ ?_ (.inr ?_)
    · intro p hp hk
      obtain ⟨y, hy, hp⟩ := List.mem_flatMap.1 hp
      obtain ⟨i, hi, rfl⟩ := List.mem_map.1 hp
      obtain ⟨a, b, e⟩ := h0.of i (List.mem_range.1 hi)
      dsimp only at hk ⊢
      rw [← e] at hk
      obtain ⟨e1, e2⟩ := (h0.same _ _ _ _ _ _ a hc' b hj).1 hk
      have := hL y hy _ _ a b
      rw [e, e1, e2] at this
      exact this
    · exact ⟨_, List.mem_flatMap.2 ⟨x, hx, List.mem_map.2 ⟨S0.toSys c j, List.mem_range.2 (h0.to c j hc' hj).1, rfl⟩⟩, rfl⟩
  · refine puts_out _ _ _ fun p hp => ?_
    obtain ⟨y, hy, hp⟩ := List.mem_flatMap.1 hp
    obtain ⟨i, hi, rfl⟩ := List.mem_map.1 hp
    exact hk y hy i (List.mem_range.1 hi)

/-- Any vector holds a field. -/
private theorem holds_exists [Zero K] {S0 : Space Cell} {node : Cell → Nat → N} (h0 : Numbered S0 node) (cells : List Cell) (vec : Nat → K) :
    ∃ field, Holds S0 node cells 0 vec field := by
  classical
  refine ⟨fun c nd => if h : ∃ x j, x ∈ cells ∧ j < S0.nNode ∧ node x j = nd then vec (S0.dof h.choose (S0.toSys c h.choose_spec.choose)) else 0, ?_⟩
  intro x hx c j hc hj
  have he : ∃ y i, y ∈ cells ∧ i < S0.nNode ∧ node y i = node x j := ⟨x, j, hx, hj, rfl⟩
  dsimp only
  rw [Nat.add_zero, dif_pos he]
  obtain ⟨_, hi, e⟩ := he.choose_spec.choose_spec
  rw [(h0.same x he.choose c c j he.choose_spec.choose hc hc hj hi).2 ⟨rfl, e.symm⟩]

/-- A vector split into the Cahn-Hilliard and the Allen-Cahn components and merged again is the same at all entries of the cells. -/
theorem C165_round [Zero K] {S0 S1 S2 : Space Cell} {node : Cell → Nat → N} (h0 : Numbered S0 node) (h1 : Numbered S1 node) (h2 : Numbered S2 node)
    (n1 : S1.nNode = S0.nNode) (n2 : S2.nNode = S0.nNode) (c1 : S1.nComp = 2) (c0 : S0.nComp = S2.nComp + 2) {cells : List Cell} (vec o1 o2 out : Nat → K) :
    ∃ v1 v2 r, split S0 S1 0 vec o1 cells = .ok v1 ∧ split S0 S2 2 vec o2 cells = .ok v2 ∧ merge S0 [⟨S1, 0, v1⟩, ⟨S2, 2, v2⟩] out cells = .ok r ∧
      ∀ x ∈ cells, ∀ i, i < S0.n → r (S0.dof x i) = vec (S0.dof x i) := by
  obtain ⟨field, hv⟩ := holds_exists h0 cells vec
  obtain ⟨v1, e1, g1, _⟩ := C165_split h0 h1 (off := 0) n1 (by omega) hv o1
  obtain ⟨v2, e2, g2, _⟩ := C165_split h0 h2 (off := 2) n2 (by omega) hv o2
  obtain ⟨r, e, g, _⟩ := C165_merge h0 (parts := [⟨S1, 0, v1⟩, ⟨S2, 2, v2⟩]) (cells := cells) (field := field)
    (by
      intro p hp
      simp only [List.mem_cons, List.not_mem_nil, or_false] at hp
      rcases hp with rfl | rfl
      · exact ⟨h1, n1, by dsimp only; omega, g1⟩
      · exact ⟨h2, n2, by dsimp only; omega, g2⟩)
    (by
      intro c hc
      by_cases h : c < 2
      · exact ⟨⟨S1, 0, v1⟩, by simp, by dsimp only; omega, by dsimp only; omega⟩
      · exact ⟨⟨S2, 2, v2⟩, by simp, by dsimp only; omega, by dsimp only; omega⟩) out
  refine ⟨v1, v2, r, e1, e2, e, fun x hx i hi => ?_⟩
  obtain ⟨a, b, t⟩ := h0.of i hi
  have p1 := g x hx _ _ a b
  have p2 := hv x hx _ _ a b
  rw [t] at p1 p2
  rw [p1, p2]

/-- The same for the version with three vectors, in which the two Cahn-Hilliard components are apart. -/
theorem C165_round_three [Zero K] {S0 S1 S2 : Space Cell} {node : Cell → Nat → N} (h0 : Numbered S0 node) (h1 : Numbered S1 node) (h2 : Numbered S2 node)
    (n1 : S1.nNode = S0.nNode) (n2 : S2.nNode = S0.nNode) (c1 : S1.nComp = 1) (c0 : S0.nComp = S2.nComp + 2) {cells : List Cell} (vec o0 o1 o2 out : Nat → K) :
    ∃ v0 v1 v2 r, split S0 S1 0 vec o0 cells = .ok v0 ∧ split S0 S1 1 vec o1 cells = .ok v1 ∧ split S0 S2 2 vec o2 cells = .ok v2 ∧
      merge S0 [⟨S1, 0, v0⟩, ⟨S1, 1, v1⟩, ⟨S2, 2, v2⟩] out cells = .ok r ∧ ∀ x ∈ cells, ∀ i, i < S0.n → r (S0.dof x i) = vec (S0.dof x i) := by
  obtain ⟨field, hv⟩ := holds_exists h0 cells vec
  obtain ⟨v0, e0, g0, _⟩ := C165_split h0 h1 (off := 0) n1 (by omega) hv o0
  obtain ⟨v1, e1, g1, _⟩ := C165_split h0 h1 (off := 1) n1 (by omega) hv o1
  obtain ⟨v2, e2, g2, _⟩ := C165_split h0 h2 (off := 2) n2 (by omega) hv o2
  obtain ⟨r, e, g, _⟩ := C165_merge h0 (parts := [⟨S1, 0, v0⟩, ⟨S1, 1, v1⟩, ⟨S2, 2, v2⟩]) (cells := cells) (field := field)
    (by
      intro p hp
      simp only [List.mem_cons, List.not_mem_nil, or_false] at hp
      rcases hp with rfl | rfl | rfl
      · exact ⟨h1, n1, by dsimp only; omega, g0⟩
      · exact ⟨h1, n1, by dsimp only; omega, g1⟩
      · exact ⟨h2, n2, by dsimp only; omega, g2⟩)
    (by
      intro c hc
      by_cases h : c < 1
      · exact ⟨⟨S1, 0, v0⟩, by simp, by dsimp only; omega, by dsimp only; omega⟩
      · by_cases h' : c < 2
        · exact ⟨⟨S1, 1, v1⟩, by simp, by dsimp only; omega, by dsimp only; omega⟩
        · exact ⟨⟨S2, 2, v2⟩, by simp, by dsimp only; omega, by dsimp only; omega⟩) out
  refine ⟨v0, v1, v2, r, e0, e1, e2, e, fun x hx i hi => ?_⟩
  obtain ⟨a, b, t⟩ := h0.of i hi
  have p1 := g x hx _ _ a b
  have p2 := hv x hx _ _ a b
  rw [t] at p1 p2
  rw [p1, p2]

namespace Ex165

/-- Two cells on a line with nodes 0, 1 and 1, 2; components of a node together. -/
def line (nc : Nat) : Space Nat := ⟨nc, 2, fun c j => c + nc * j, fun i => (i % nc, i / nc), fun x i => nc * x + i⟩

/-- Values at the first entries of a vector. -/
def shown (n : Nat) (v : Res (Nat → Int)) : Res (List Int) := v >>= fun f => .ok ((List.range n).map f)

example : shown 6 (split (line 3) (line 2) 0 (fun k => (k : Int)) (fun _ => -1) [0, 1]) = .ok [0, 1, 3, 4, 6, 7] := by decide +kernel
example : shown 4 (split (line 3) (line 1) 2 (fun k => (k : Int)) (fun _ => -1) [0, 1]) = .ok [2, 5, 8, -1] := by decide +kernel
example : shown 9 (merge (line 3) [⟨line 2, 0, fun k => ([0, 1, 3, 4, 6, 7] : List Int).getD k 0⟩, ⟨line 1, 2, fun k => ([2, 5, 8] : List Int).getD k 0⟩] (fun _ => -1) [0, 1]) =
    .ok [0, 1, 2, 3, 4, 5, 6, 7, 8] := by decide +kernel
example : shown 1 (split (line 3) (line 2) 2 (fun k => (k : Int)) (fun _ => -1) [0, 1]) = .ub := by decide +kernel

end Ex165

end Verif.Props
