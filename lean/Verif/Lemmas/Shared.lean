import Verif.Spec.Shared
import Verif.Lemmas.BlockVector
import Mathlib.Data.List.Basic
import Mathlib.Data.List.Nodup
/-! Helper lemmas for `Props/Shared.lean`. -/
namespace Verif.Shared
open Verif
set_option linter.unusedSectionVars false
variable {K : Type}

/-- No two vectors and no two places of a vector share a block. -/
structure Sep (s : St K) : Prop where
  nodup : ∀ x, (s.vars x).Nodup
  apart : ∀ x y, x ≠ y → ∀ a, a ∈ s.vars x → a ∉ s.vars y
  below : ∀ x, ∀ a ∈ s.vars x, a < s.next

/-- pointers a loop writes to -/
def targets (l : List (Option Nat × Nat)) : List Nat := l.filterMap (·.1)

/-- no block is read after it was written for an earlier place -/
def Clear : List (Option Nat × Nat) → Prop
  | [] => True
  | (q, _) :: l => (∀ a, q = some a → ∀ r ∈ l, r.2 ≠ a) ∧ Clear l

@[simp] theorem point_same (s : St K) (x : Nat) (l : List Nat) : (s.point x l).vars x = l := by simp [St.point]
@[simp] theorem point_other (s : St K) {x w : Nat} (l : List Nat) (h : w ≠ x) : (s.point x l).vars w = s.vars w := by
  simp [St.point, h]
@[simp] theorem point_heap (s : St K) (x : Nat) (l : List Nat) : (s.point x l).heap = s.heap := rfl
@[simp] theorem point_next (s : St K) (x : Nat) (l : List Nat) : (s.point x l).next = s.next := rfl

@[simp] theorem targets_some (a p : Nat) (l : List (Option Nat × Nat)) : targets ((some a, p) :: l) = a :: targets l := rfl
@[simp] theorem targets_none (p : Nat) (l : List (Option Nat × Nat)) : targets ((none, p) :: l) = targets l := rfl
@[simp] theorem targets_nil : targets [] = [] := rfl

/-- The memory a loop does not write to stays as it is; nothing else but memory changes. -/
theorem loop_frame (f : List K → List K → List K) : ∀ (l : List (Option Nat × Nat)) (s : St K),
    (loop f s l).1.vars = s.vars ∧ s.next ≤ (loop f s l).1.next ∧
    (∀ a, a < s.next → a ∉ targets l → (loop f s l).1.heap a = s.heap a) := by
  intro l
  induction l with
  | nil => intro s; exact ⟨rfl, Nat.le_refl _, fun _ _ _ => rfl⟩
  | cons h l ih =>
    obtain ⟨q, p⟩ := h
    intro s
    cases q with
    | some a =>
      obtain ⟨h1, h2, h3⟩ := ih (s.write a (f (s.heap a) (s.heap p)))
      refine ⟨h1, h2, fun b hb hn => ?_⟩
      simp only [targets_some, List.mem_cons, not_or] at hn
      rw [loop]
      simp only
      rw [h3 b hb hn.2]
      simp [St.write, hn.1]
    | none =>
      obtain ⟨h1, h2, h3⟩ := ih (s.alloc (f [] (s.heap p)))
      refine ⟨h1, ?_, fun b hb hn => ?_⟩
      · simp only [St.alloc] at h2
        rw [loop]
        simp only [St.alloc]
        omega
      · rw [loop]
        simp only
        rw [h3 b (by simp [St.alloc]; omega) hn]
        simp [St.alloc]
        omega

/-- The pointers a loop leaves: those it got, and new ones. -/
theorem loop_ptrs (f : List K → List K → List K) : ∀ (l : List (Option Nat × Nat)) (s : St K),
    (∀ a ∈ targets l, a < s.next) → (targets l).Nodup →
    (loop f s l).2.Nodup ∧ (∀ a ∈ (loop f s l).2, a ∈ targets l ∨ s.next ≤ a) ∧
    (∀ a ∈ (loop f s l).2, a < (loop f s l).1.next) := by
  intro l
  induction l with
  | nil => intro s _ _; simp [loop]
  | cons h l ih =>
    obtain ⟨q, p⟩ := h
    intro s hb hn
    cases q with
    | some a =>
      simp only [targets_some, List.mem_cons, List.nodup_cons] at hb hn
      obtain ⟨h1, h2, h3⟩ := ih (s.write a (f (s.heap a) (s.heap p))) (fun b hb' => hb b (Or.inr hb')) hn.2
      have hn' := (loop_frame f l (s.write a (f (s.heap a) (s.heap p)))).2.1
      simp only [loop, List.nodup_cons, List.mem_cons, targets_some]
      refine ⟨⟨fun hm => ?_, h1⟩, ?_, ?_⟩
      · rcases h2 a hm with h | h
        · exact hn.1 h
        · have := hb a (Or.inl rfl)
          simp only [St.write] at h
          omega
      · rintro b (rfl | hm)
        · exact Or.inl (Or.inl rfl)
        · rcases h2 b hm with h | h
          · exact Or.inl (Or.inr h)
          · exact Or.inr h
      · rintro b (rfl | hm)
        · exact Nat.lt_of_lt_of_le (hb _ (Or.inl rfl)) hn'
        · exact h3 b hm
    | none =>
      simp only [targets_none] at hb hn
      obtain ⟨h1, h2, h3⟩ := ih (s.alloc (f [] (s.heap p)))
        (fun b hb' => Nat.lt_succ_of_lt (hb b hb')) hn
      have hn' := (loop_frame f l (s.alloc (f [] (s.heap p)))).2.1
      simp only [loop, List.nodup_cons, List.mem_cons, targets_none]
      refine ⟨⟨fun hm => ?_, h1⟩, ?_, ?_⟩
      · rcases h2 _ hm with h | h
        · exact Nat.lt_irrefl _ (hb _ h)
        · simp only [St.alloc] at h
          omega
      · rintro b (rfl | hm)
        · exact Or.inr (Nat.le_refl _)
        · rcases h2 b hm with h | h
          · exact Or.inl h
          · simp only [St.alloc] at h
            exact Or.inr (by omega)
      · rintro b (rfl | hm)
        · simp only [St.alloc] at hn'
          simp only [St.alloc]
          omega
        · exact h3 b hm

/-- entries a block has before its turn -/
def old (s : St K) : Option Nat → List K
  | some a => s.heap a
  | none => []

/-- If no block is read after it was written, the loop computes all new values from the old ones. -/
theorem loop_values (f : List K → List K → List K) : ∀ (l : List (Option Nat × Nat)) (s : St K),
    (∀ a ∈ targets l, a < s.next) → (targets l).Nodup → Clear l →
    (∀ r ∈ l, r.2 < s.next ∨ ∀ o v w, f o v = f o w) →
    (loop f s l).2.map (loop f s l).1.heap = l.map fun r => f (old s r.1) (s.heap r.2) := by
  intro l
  induction l with
  | nil => intro s _ _ _ _; rfl
  | cons h l ih =>
    obtain ⟨q, p⟩ := h
    intro s hb hn hc hp
    have hc' := hc.2
    cases q with
    | some a =>
      have hca := hc.1 a rfl
      simp only [targets_some, List.mem_cons, List.nodup_cons] at hb hn
      have hr0 := ih (s.write a (f (s.heap a) (s.heap p))) (fun b hb' => hb b (Or.inr hb')) hn.2 hc'
        (fun r hr => hp r (List.mem_cons_of_mem _ hr))
      have hf := (loop_frame f l (s.write a (f (s.heap a) (s.heap p)))).2.2 a (hb a (Or.inl rfl)) hn.1
      simp only [loop, List.map_cons]
      rw [hr0, hf]
      congr 1
      · simp [St.write, old]
      · refine List.map_congr_left fun r hr => ?_
        obtain ⟨q', p'⟩ := r
        have h1 : (s.write a (f (s.heap a) (s.heap p))).heap p' = s.heap p' := by
          simp [St.write, hca _ hr]
        have h2 : old (s.write a (f (s.heap a) (s.heap p))) q' = old s q' := by
          cases q' with
          | none => rfl
          | some b =>
            have : b ≠ a := by
              rintro rfl
              exact hn.1 (List.mem_filterMap.2 ⟨(_, p'), hr, rfl⟩)
            simp [old, St.write, this]
        simp only [h1, h2]
    | none =>
      simp only [targets_none] at hb hn
      have hr0 := ih (s.alloc (f [] (s.heap p))) (fun b hb' => Nat.lt_succ_of_lt (hb b hb')) hn hc'
        (fun r hr => (hp r (List.mem_cons_of_mem _ hr)).imp Nat.lt_succ_of_lt id)
      have hf := (loop_frame f l (s.alloc (f [] (s.heap p)))).2.2 s.next (by simp [St.alloc])
        (fun h => Nat.lt_irrefl _ (hb _ h))
      simp only [loop, List.map_cons]
      rw [hr0, hf]
      congr 1
      · simp [St.alloc, old]
      · refine List.map_congr_left fun r hr => ?_
        obtain ⟨q', p'⟩ := r
        have h2 : old (s.alloc (f [] (s.heap p))) q' = old s q' := by
          cases q' with
          | none => rfl
          | some b =>
            have : b ≠ s.next := Nat.ne_of_lt (hb b (List.mem_filterMap.2 ⟨(_, p'), hr, rfl⟩))
            simp [old, St.alloc, this]
        simp only [h2]
        rcases hp _ (List.mem_cons_of_mem _ hr) with h | h
        · have : p' ≠ s.next := Nat.ne_of_lt h
          simp [St.alloc, this]
        · exact h _ _ _

/-- Storing what a loop has left keeps vectors apart and changes the value of one vector only. -/
theorem keep_spec (f : List K → List K → List K) (s : St K) (hs : Sep s) (x : Nat) (pre : List Nat)
    (l : List (Option Nat × Nat)) (hpre : (pre ++ targets l).Sublist (s.vars x)) (hc : Clear l)
    (hp : ∀ r ∈ l, r.2 < s.next ∨ ∀ o v w, f o v = f o w) :
    Sep (keep x pre (loop f s l)) ∧ (keep x pre (loop f s l)).val
      = Spec.put s.val x (pre.map s.heap ++ l.map fun r => f (old s r.1) (s.heap r.2)) := by
  have hnd : (pre ++ targets l).Nodup := (hs.nodup x).sublist hpre
  have hnd' := List.nodup_append.1 hnd
  have hb : ∀ a ∈ pre ++ targets l, a < s.next := fun a ha => hs.below x a (hpre.subset ha)
  have hbt : ∀ a ∈ targets l, a < s.next := fun a ha => hb a (List.mem_append_right _ ha)
  obtain ⟨f1, f2, f3⟩ := loop_frame f l s
  obtain ⟨p1, p2, p3⟩ := loop_ptrs f l s hbt hnd'.2.1
  have hv := loop_values f l s hbt hnd'.2.1 hc hp
  have hin : ∀ a ∈ pre ++ (loop f s l).2, a ∈ s.vars x ∨ s.next ≤ a := by
    intro a ha
    rcases List.mem_append.1 ha with h | h
    · exact Or.inl (hpre.subset (List.mem_append_left _ h))
    · rcases p2 a h with h | h
      · exact Or.inl (hpre.subset (List.mem_append_right _ h))
      · exact Or.inr h
  constructor
  · constructor
    · intro w
      by_cases hw : w = x
      · subst hw
        simp only [keep, point_same]
        refine List.nodup_append.2 ⟨hnd'.1, p1, fun a ha b hb' hab => ?_⟩
        subst hab
        rcases p2 a hb' with h | h
        · exact hnd'.2.2 a ha a h rfl
        · have := hb a (List.mem_append_left _ ha)
          omega
      · simp only [keep, point_other _ _ hw, f1]
        exact hs.nodup w
    · intro w y hwy a ha
      by_cases hw : w = x
      · subst hw
        simp only [keep, point_same] at ha
        simp only [keep, point_other _ _ (Ne.symm hwy), f1]
        rcases hin a ha with h | h
        · exact hs.apart w y hwy a h
        · intro h'
          have := hs.below y a h'
          omega
      · simp only [keep, point_other _ _ hw, f1] at ha
        by_cases hy : y = x
        · subst hy
          simp only [keep, point_same]
          intro h'
          rcases hin a h' with h | h
          · exact hs.apart w y hwy a ha h
          · have := hs.below w a ha
            omega
        · simp only [keep, point_other _ _ hy, f1]
          exact hs.apart w y hwy a ha
    · intro w a ha
      simp only [keep, point_next]
      by_cases hw : w = x
      · subst hw
        simp only [keep, point_same] at ha
        rcases List.mem_append.1 ha with h | h
        · exact Nat.lt_of_lt_of_le (hb a (List.mem_append_left _ h)) f2
        · exact p3 a h
      · simp only [keep, point_other _ _ hw, f1] at ha
        exact Nat.lt_of_lt_of_le (hs.below w a ha) f2
  · funext w
    by_cases hw : w = x
    · subst hw
      simp only [St.val, keep, point_same, point_heap, List.map_append, hv, Spec.put, if_true]
      congr 1
      refine List.map_congr_left fun a ha => f3 a (hb a (List.mem_append_left _ ha)) fun h => hnd'.2.2 a ha a h rfl
    · simp only [St.val, keep, point_other _ _ hw, point_heap, f1, Spec.put, if_neg hw]
      refine List.map_congr_left fun a ha => f3 a (hs.below w a ha) fun h => ?_
      exact hs.apart w x hw a ha (hpre.subset (List.mem_append_right _ h))

theorem clear_apart : ∀ (l : List (Option Nat × Nat)), (∀ a ∈ targets l, ∀ r ∈ l, r.2 ≠ a) → Clear l := by
  intro l
  induction l with
  | nil => intro _; trivial
  | cons h l ih =>
    obtain ⟨q, p⟩ := h
    intro hd
    refine ⟨?_, ih fun a ha r hr => hd a ?_ r (List.mem_cons_of_mem _ hr)⟩
    · rintro a rfl r hr
      exact hd a (by simp) r (List.mem_cons_of_mem _ hr)
    · cases q <;> simp [ha]

theorem clear_diag : ∀ (l : List Nat), l.Nodup → Clear (l.map fun a => (some a, a)) := by
  intro l
  induction l with
  | nil => intro _; trivial
  | cons a l ih =>
    intro hn
    rw [List.nodup_cons] at hn
    refine ⟨?_, ih hn.2⟩
    rintro b hb r hr
    obtain rfl : a = b := by simpa using hb
    obtain ⟨c, hc, rfl⟩ := List.mem_map.1 hr
    rintro rfl
    exact hn.1 hc

theorem targets_diag (l : List Nat) : targets (l.map fun a => (some a, a)) = l := by
  induction l with
  | nil => rfl
  | cons a l ih => rw [List.map_cons, targets_some, ih]

theorem resized_zero (l : List Nat) : resized 0 l = [] := by simp [resized]
theorem resized_nil (n : Nat) : resized (n + 1) [] = none :: resized n [] := by simp [resized, List.replicate_succ]
theorem resized_cons (n a : Nat) (l : List Nat) : resized (n + 1) (a :: l) = some a :: resized n l := by simp [resized]
theorem resized_self (l : List Nat) : resized l.length l = l.map some := by simp [resized]

theorem targets_resized : ∀ (ys xs : List Nat), targets ((resized ys.length xs).zip ys) = xs.take ys.length := by
  intro ys
  induction ys with
  | nil => intro xs; simp [resized_zero]
  | cons y ys ih =>
    intro xs
    cases xs with
    | nil =>
      have := ih []
      simp only [List.take_nil] at this
      rw [List.length_cons, resized_nil, List.zip_cons_cons, targets_none, this, List.take_nil]
    | cons x xs => rw [List.length_cons, resized_cons, List.zip_cons_cons, targets_some, ih, List.take_succ_cons]

theorem snd_resized (ys xs : List Nat) : ((resized ys.length xs).zip ys).map Prod.snd = ys := by
  rw [List.map_snd_zip]
  simp only [resized, List.length_append, List.length_map, List.length_take, List.length_replicate]
  omega

theorem zip_self (l : List Nat) : (l.map some).zip l = l.map fun a => (some a, a) := by
  induction l with
  | nil => rfl
  | cons a l ih => simp [ih]

theorem targets_zip : ∀ (xs ys : List Nat), xs.length ≤ ys.length → targets ((xs.map some).zip ys) = xs := by
  intro xs
  induction xs with
  | nil => intro ys _; simp
  | cons x xs ih =>
    intro ys h
    cases ys with
    | nil => simp at h
    | cons y ys =>
      rw [List.map_cons, List.zip_cons_cons, targets_some, ih ys (by simpa using h)]

theorem values_zip (s : St K) (f : List K → List K → List K) : ∀ (xs ys : List Nat),
    ((xs.map some).zip ys).map (fun r => f (old s r.1) (s.heap r.2)) = List.zipWith f (xs.map s.heap) (ys.map s.heap) := by
  intro xs
  induction xs with
  | nil => intro ys; simp
  | cons x xs ih =>
    intro ys
    cases ys with
    | nil => simp
    | cons y ys => 
      rw [List.map_cons, List.map_cons, List.map_cons, List.zip_cons_cons, List.zipWith_cons_cons, List.map_cons, ih ys]
      rfl

theorem targets_replicate (n p : Nat) : targets (List.replicate n (none, p)) = [] := by
  induction n with
  | zero => rfl
  | succ n ih => rw [List.replicate_succ, targets_none, ih]

theorem targets_fresh (l : List Nat) : targets (l.map fun p => (none, p)) = [] := by
  induction l with
  | nil => rfl
  | cons a l ih => rw [List.map_cons, targets_none, ih]

theorem sep_resized {s : St K} (hs : Sep s) (x y : Nat) :
    Clear ((resized (s.vars y).length (s.vars x)).zip (s.vars y)) := by
  by_cases h : x = y
  · subst h
    rw [resized_self, zip_self]
    exact clear_diag _ (hs.nodup x)
  · refine clear_apart _ fun a ha r hr hra => ?_
    rw [targets_resized] at ha
    have h2 : r.2 ∈ s.vars y := (List.of_mem_zip (a := r.1) (b := r.2) hr).2
    exact hs.apart x y h a (List.mem_of_mem_take ha) (hra ▸ h2)

theorem sep_zip {s : St K} (hs : Sep s) (x y : Nat) (hl : (s.vars x).length ≤ (s.vars y).length) :
    Clear (((s.vars x).map some).zip (s.vars y)) := by
  by_cases h : x = y
  · subst h
    rw [zip_self]
    exact clear_diag _ (hs.nodup x)
  · refine clear_apart _ fun a ha r hr hra => ?_
    rw [targets_zip _ _ hl] at ha
    have h2 : r.2 ∈ s.vars y := (List.of_mem_zip (a := r.1) (b := r.2) hr).2
    exact hs.apart x y h a ha (hra ▸ h2)

/-- another arrangement of some pointers of a vector -/
theorem point_sub {s : St K} (hs : Sep s) (x : Nat) (l : List Nat) (hn : l.Nodup) (hsub : ∀ a ∈ l, a ∈ s.vars x) :
    Sep (s.point x l) := by
  constructor
  · intro w
    by_cases hw : w = x
    · subst hw; simpa using hn
    · rw [point_other _ _ hw]; exact hs.nodup w
  · intro w y hwy a ha
    by_cases hw : w = x
    · subst hw
      rw [point_same] at ha
      rw [point_other _ _ (Ne.symm hwy)]
      exact hs.apart w y hwy a (hsub a ha)
    · rw [point_other _ _ hw] at ha
      by_cases hy : y = x
      · subst hy
        rw [point_same]
        exact fun h => hs.apart w y hwy a ha (hsub a h)
      · rw [point_other _ _ hy]
        exact hs.apart w y hwy a ha
  · intro w a ha
    by_cases hw : w = x
    · subst hw
      rw [point_same] at ha
      exact hs.below w a (hsub a ha)
    · rw [point_other _ _ hw] at ha
      exact hs.below w a ha

theorem point_val (s : St K) (x : Nat) (l : List Nat) : (s.point x l).val = Spec.put s.val x (l.map s.heap) := by
  funext w
  by_cases hw : w = x
  · subst hw; simp [St.val, Spec.put]
  · simp [St.val, Spec.put, hw]

theorem insertIdx_take_drop {A : Type} (l : List A) (j : Nat) (a : A) (h : j ≤ l.length) :
    l.insertIdx j a = l.take j ++ a :: l.drop j := by
  induction l generalizing j with
  | nil => obtain rfl : j = 0 := by simpa using h
           rfl
  | cons b l ih =>
    cases j with
    | zero => rfl
    | succ j => simp [List.insertIdx_succ_cons, ih j (by simpa using h)]

theorem val_length (s : St K) (x : Nat) : (s.val x).length = (s.vars x).length := by simp [St.val]

theorem moveBlocks_ub {B : Type} (l : List B) (i j : Nat) (h : ¬ (i < l.length ∧ j < l.length)) : moveBlocks l i j = .ub := by
  have hx : ∀ (a : List B) i, (∃ x, Res.index a i = .ok x) ∨ Res.index a i = .ub := by
    intro a i
    simp only [Res.index]
    cases a[i]? <;> simp
  have hs : ∀ (a : List B) i x, (∃ b, setR a i x = .ok b) ∨ setR a i x = .ub := by
    intro a i x
    simp only [setR]
    split <;> simp
  have hc : ∀ (a : List B) i j, (∃ b, copyR a i j = .ok b) ∨ copyR a i j = .ub := by
    intro a i j
    simp only [copyR]
    rcases hx a j with ⟨x, h⟩ | h
    · rw [h, Res.ok_bind]; exact hs a i x
    · rw [h]; exact Or.inr rfl
  have hf : ∀ (g : Nat → Nat) (is : List Nat) (a : List B),
      (∃ b, is.foldlM (fun l i => copyR l i (g i)) a = .ok b) ∨ is.foldlM (fun l i => copyR l i (g i)) a = .ub := by
    intro g is
    induction is with
    | nil => intro a; exact Or.inl ⟨a, rfl⟩
    | cons k is ih =>
      intro a
      rw [List.foldlM_cons]
      rcases hc a k (g k) with ⟨b, hb⟩ | hb
      · rw [hb, Res.ok_bind]; exact ih b
      · rw [hb]; exact Or.inr rfl
  have hsl : ∀ (a : List B) p q, (∃ b, shiftLeft a p q = .ok b) ∨ shiftLeft a p q = .ub := fun a p q => hf (· + 1) _ a
  have hsr : ∀ (a : List B) p q, (∃ b, shiftRight a p q = .ok b) ∨ shiftRight a p q = .ub := fun a p q => hf (· - 1) _ a
  have hall : (∃ r, moveBlocks l i j = .ok r) ∨ moveBlocks l i j = .ub := by
    simp only [moveBlocks]
    rcases hx l i with ⟨x, hx⟩ | hx
    · rw [hx, Res.ok_bind]
      split
      · rcases hsr l i j with ⟨b, hb⟩ | hb
        · rw [hb, Res.ok_bind]; exact hs b j x
        · rw [hb]; exact Or.inr rfl
      · split
        · rcases hsl l i j with ⟨b, hb⟩ | hb
          · rw [hb, Res.ok_bind]; exact hs b j x
          · rw [hb]; exact Or.inr rfl
        · exact hs l j x
    · rw [hx]; exact Or.inr rfl
  rcases hall with ⟨r, hr⟩ | hr
  · exact absurd (moveBlocks_range hr) h
  · exact hr

theorem mem_erase_parts {l : List Nat} {i : Nat} {a : Nat} (h : a ∈ l.take i ++ l.drop (i + 1)) : a ∈ l := by
  rcases List.mem_append.1 h with h | h
  · exact List.mem_of_mem_take h
  · exact List.mem_of_mem_drop h

theorem erase_nodup {l : List Nat} (i : Nat) (h : l.Nodup) : (l.take i ++ l.drop (i + 1)).Nodup := by
  rw [← List.eraseIdx_eq_take_drop_succ]
  exact h.eraseIdx i

theorem getElem_not_mem_erase {l : List Nat} {i : Nat} (hi : i < l.length) (h : l.Nodup) : l[i] ∉ l.take i ++ l.drop (i + 1) := by
  have : l = l.take i ++ l[i] :: l.drop (i + 1) := by simp
  rw [this] at h
  have h' := List.nodup_middle.1 h
  exact (List.nodup_cons.1 h').1

theorem insert_nodup {l : List Nat} {a : Nat} (j : Nat) (h : l.Nodup) (ha : a ∉ l) : (l.take j ++ a :: l.drop j).Nodup := by
  rw [List.nodup_middle, List.take_append_drop]
  exact List.nodup_cons.2 ⟨ha, h⟩

theorem mem_insert_parts {l : List Nat} {j a b : Nat} (h : b ∈ l.take j ++ a :: l.drop j) : b = a ∨ b ∈ l := by
  rcases List.mem_append.1 h with h | h
  · exact Or.inr (List.mem_of_mem_take h)
  · rcases List.mem_cons.1 h with h | h
    · exact Or.inl h
    · exact Or.inr (List.mem_of_mem_drop h)

/-- Outcome of the machine with pointers against outcome on values. -/
def Agree (r : Res (St K)) (v : Res (Nat → List (List K))) : Prop :=
  (∃ s, r = .ok s ∧ Sep s ∧ v = .ok s.val) ∨ (r = .ub ∧ v = .ub)

theorem put_put (m : Nat → List (List K)) (x : Nat) (a b : List (List K)) : Spec.put (Spec.put m x a) x b = Spec.put m x b := by
  funext w; simp only [Spec.put]; split <;> rfl

section step
variable [Zero K]

theorem zeros_eq (v : List K) : zeros v = List.replicate v.length 0 := by simp [zeros, List.map_const']

theorem step_create {s : St K} (hs : Sep s) (x n : Nat) : Agree (exec s (.create x n)) (Spec.exec s.val (.create x n)) := by
  obtain ⟨h1, h2⟩ := keep_spec (fun _ _ => []) s hs x [] (List.replicate n (none, 0))
    (by rw [targets_replicate]; exact List.nil_sublist _)
    (clear_apart _ (by rw [targets_replicate]; simp)) (fun _ _ => Or.inr fun _ _ _ => rfl)
  refine Or.inl ⟨_, rfl, h1, ?_⟩
  rw [h2]
  simp [Spec.exec]

theorem step_copy {s : St K} (hs : Sep s) (x y : Nat) : Agree (exec s (.copy x y)) (Spec.exec s.val (.copy x y)) := by
  simp only [exec, Spec.exec]
  split
  · exact Or.inr ⟨rfl, rfl⟩
  obtain ⟨h1, h2⟩ := keep_spec (fun _ v => v) s hs x [] ((s.vars y).map fun p => (none, p))
    (by rw [targets_fresh]; exact List.nil_sublist _)
    (clear_apart _ (by rw [targets_fresh]; simp))
    (fun r hr => Or.inl (by obtain ⟨p, hp, rfl⟩ := List.mem_map.1 hr; exact hs.below y p hp))
  refine Or.inl ⟨_, rfl, h1, ?_⟩
  rw [h2]
  simp [St.val]
  rfl

theorem step_over {s : St K} (hs : Sep s) (x y : Nat) (g : List K → List K) :
    Sep (keep x [] (loop (fun _ v => g v) s ((resized (s.vars y).length (s.vars x)).zip (s.vars y)))) ∧
    (keep x [] (loop (fun _ v => g v) s ((resized (s.vars y).length (s.vars x)).zip (s.vars y)))).val
      = Spec.put s.val x ((s.val y).map g) := by
  obtain ⟨h1, h2⟩ := keep_spec (fun _ v => g v) s hs x [] ((resized (s.vars y).length (s.vars x)).zip (s.vars y))
    (by rw [targets_resized]; exact List.take_sublist _ _) (sep_resized hs x y)
    (fun r hr => Or.inl (hs.below y _ (List.of_mem_zip (a := r.1) (b := r.2) hr).2))
  refine ⟨h1, ?_⟩
  rw [h2]
  congr 1
  have : (fun r : Option Nat × Nat => g (s.heap r.2)) = (fun p => g (s.heap p)) ∘ Prod.snd := rfl
  rw [List.map_nil, List.nil_append, this, ← List.map_map, snd_resized]
  simp [St.val]

theorem step_assign {s : St K} (hs : Sep s) (x y : Nat) : Agree (exec s (.assign x y)) (Spec.exec s.val (.assign x y)) := by
  obtain ⟨h1, h2⟩ := step_over hs x y id
  refine Or.inl ⟨_, rfl, h1, ?_⟩
  simp only [List.map_id] at h2
  exact congrArg _ h2.symm

theorem step_like {s : St K} (hs : Sep s) (x y : Nat) : Agree (exec s (.like x y)) (Spec.exec s.val (.like x y)) := by
  obtain ⟨h1, h2⟩ := step_over hs x y zeros
  refine Or.inl ⟨_, rfl, h1, ?_⟩
  rw [h2]
  simp only [Spec.exec]
  congr 2
  exact List.map_congr_left fun b _ => (zeros_eq b).symm

theorem step_swap {s : St K} (hs : Sep s) (x y : Nat) : Agree (exec s (.swap x y)) (Spec.exec s.val (.swap x y)) := by
  refine Or.inl ⟨_, rfl, ?_, ?_⟩
  · have hv : ∀ w, ((s.point x (s.vars y)).point y (s.vars x)).vars w = s.vars (if w = y then x else if w = x then y else w) := by
      intro w
      simp only [St.point]
      split
      · rfl
      · split <;> rfl
    have hinj : ∀ w v, w ≠ v → (if w = y then x else if w = x then y else w) ≠ (if v = y then x else if v = x then y else v) := by
      intro w v h
      split <;> split <;> (try split) <;> (try split) <;> omega
    constructor
    · intro w; rw [hv]; exact hs.nodup _
    · intro w v h a ha; rw [hv] at ha ⊢; exact hs.apart _ _ (hinj w v h) a ha
    · intro w a ha; rw [hv] at ha; exact hs.below _ a ha
  · simp only [Spec.exec, point_val, point_heap]
    rfl

theorem step_move {s : St K} (hs : Sep s) (x y : Nat) : Agree (exec s (.move x y)) (Spec.exec s.val (.move x y)) := by
  simp only [exec, Spec.exec]
  split
  · exact Or.inr ⟨rfl, rfl⟩
  rename_i hxy
  refine Or.inl ⟨_, rfl, ?_, ?_⟩
  · have hv : ∀ w a, a ∈ ((s.point x (s.vars y)).point y []).vars w →
        w ≠ y ∧ a ∈ s.vars (if w = x then y else w) := by
      intro w a ha
      simp only [St.point] at ha
      split at ha
      · simp at ha
      · rename_i h
        refine ⟨h, ?_⟩
        split at ha
        · rename_i h'; simpa [h'] using ha
        · rename_i h'; simpa [h'] using ha
    constructor
    · intro w
      simp only [St.point]
      split
      · simp
      · split
        · exact hs.nodup _
        · exact hs.nodup _
    · intro w v h a ha ha'
      obtain ⟨h1, h2⟩ := hv w a ha
      obtain ⟨h3, h4⟩ := hv v a ha'
      refine hs.apart _ _ ?_ a h2 h4
      split <;> split <;> omega
    · intro w a ha
      exact hs.below _ a (hv w a ha).2
  · simp only [point_val, point_heap]
    rfl

theorem step_resize {s : St K} (hs : Sep s) (x n : Nat) : Agree (exec s (.resize x n)) (Spec.exec s.val (.resize x n)) := by
  obtain ⟨h1, h2⟩ := keep_spec (fun _ v => if s.vars x = [] then [] else zeros v) s hs x ((s.vars x).take n)
    (List.replicate (n - (s.vars x).length) (none, (s.vars x).headD 0))
    (by rw [targets_replicate, List.append_nil]; exact List.take_sublist _ _)
    (clear_apart _ (by rw [targets_replicate]; simp))
    (by
      intro r hr
      obtain ⟨_, rfl⟩ := List.mem_replicate.1 hr
      cases h : s.vars x with
      | nil => exact Or.inr fun _ _ _ => by simp
      | cons a l => exact Or.inl (hs.below x a (by rw [h]; simp)))
  refine Or.inl ⟨_, rfl, h1, ?_⟩
  rw [h2]
  simp only [Spec.exec, Spec.resize, val_length]
  congr 2
  split
  · rename_i h
    rw [Nat.sub_eq_zero_of_le h]
    simp [St.val]
  · rename_i h
    rw [List.take_of_length_le (by omega), List.map_replicate]
    cases hx : s.vars x with
    | nil => simp [St.val, hx]
    | cons a l => simp [St.val, hx, zeros_eq]

theorem step_shift {s : St K} (hs : Sep s) (x i j : Nat) : Agree (exec s (.shift x i j)) (Spec.exec s.val (.shift x i j)) := by
  simp only [exec, Spec.exec]
  by_cases h : i < (s.vars x).length ∧ j < (s.vars x).length
  · have hl : ((s.vars x).take i ++ (s.vars x).drop (i + 1)).length = (s.vars x).length - 1 := by
      simp only [List.length_append, List.length_take, List.length_drop]; omega
    rw [moveBlocks_ok h.1 h.2, Res.ok_bind, dif_pos (by simpa only [val_length] using h)]
    refine Or.inl ⟨_, rfl, point_sub hs x _ (insert_nodup j (erase_nodup i (hs.nodup x)) (getElem_not_mem_erase h.1 (hs.nodup x))) ?_, ?_⟩
    · intro a ha
      rcases mem_insert_parts ha with rfl | ha
      · exact List.getElem_mem _
      · exact mem_erase_parts ha
    · rw [point_val, List.eraseIdx_eq_take_drop_succ, insertIdx_take_drop _ _ _ (by
        simp only [St.val, ← List.map_take, ← List.map_drop, ← List.map_append, List.length_map, hl]; omega)]
      congr 2
      simp [St.val, List.map_take, List.map_drop]
  · rw [moveBlocks_ub _ _ _ h, dif_neg (by simpa only [val_length] using h)]
    exact Or.inr ⟨rfl, rfl⟩

theorem step_remove {s : St K} (hs : Sep s) (x i : Nat) : Agree (exec s (.remove x i)) (Spec.exec s.val (.remove x i)) := by
  simp only [exec, Spec.exec, val_length]
  by_cases h : i < (s.vars x).length
  · rw [removeBlocks_ok h, Res.ok_bind, if_pos h]
    refine Or.inl ⟨_, rfl, point_sub hs x _ (erase_nodup i (hs.nodup x)) fun a ha => mem_erase_parts ha, ?_⟩
    rw [point_val, List.eraseIdx_eq_take_drop_succ]
    simp [St.val, List.map_take, List.map_drop]
  · rw [removeBlocks_ub h, if_neg h]
    exact Or.inr ⟨rfl, rfl⟩

theorem step_transfer {s : St K} (hs : Sep s) (x i y j : Nat) :
    Agree (exec s (.transfer x i y j)) (Spec.exec s.val (.transfer x i y j)) := by
  simp only [exec, Spec.exec]
  by_cases h : i < (s.vars x).length
  · rw [removeBlocks_ok h, Res.ok_bind, dif_pos (by simpa only [val_length] using h)]
    simp only
    have hm : Spec.put s.val x ((s.val x).eraseIdx i) = (s.point x ((s.vars x).take i ++ (s.vars x).drop (i + 1))).val := by
      rw [point_val, List.eraseIdx_eq_take_drop_succ]
      simp [St.val, List.map_take, List.map_drop]
    have hs1 : Sep (s.point x ((s.vars x).take i ++ (s.vars x).drop (i + 1))) :=
      point_sub hs x _ (erase_nodup i (hs.nodup x)) fun a ha => mem_erase_parts ha
    have hfree : ∀ w, (s.vars x)[i] ∉ (s.point x ((s.vars x).take i ++ (s.vars x).drop (i + 1))).vars w := by
      intro w
      by_cases hw : w = x
      · subst hw
        rw [point_same]
        exact getElem_not_mem_erase h (hs.nodup w)
      · rw [point_other _ _ hw]
        exact hs.apart x w (Ne.symm hw) _ (List.getElem_mem h)
    have hbel : (s.vars x)[i] < s.next := hs.below x _ (List.getElem_mem h)
    have hval : (s.val x)[i]'(by rw [val_length]; exact h) = s.heap ((s.vars x)[i]) := by simp [St.val]
    rw [hm, hval]
    generalize hs' : s.point x ((s.vars x).take i ++ (s.vars x).drop (i + 1)) = s' at *
    have hheap : s'.heap = s.heap := by rw [← hs']; rfl
    have hnext : s'.next = s.next := by rw [← hs']; rfl
    generalize (s.vars x)[i] = p at *
    rw [val_length]
    by_cases hj : j ≤ (s'.vars y).length
    · rw [insertBlocks_ok _ _ hj, Res.ok_bind, if_pos hj]
      refine Or.inl ⟨_, rfl, ?_, ?_⟩
      · constructor
        · intro w
          by_cases hw : w = y
          · subst hw; rw [point_same]; exact insert_nodup j (hs1.nodup w) (hfree w)
          · rw [point_other _ _ hw]; exact hs1.nodup w
        · intro w v hwv a ha
          by_cases hw : w = y
          · subst hw
            rw [point_same] at ha
            rw [point_other _ _ (Ne.symm hwv)]
            rcases mem_insert_parts ha with rfl | ha
            · exact hfree v
            · exact hs1.apart w v hwv a ha
          · rw [point_other _ _ hw] at ha
            by_cases hv : v = y
            · subst hv
              rw [point_same]
              intro h'
              rcases mem_insert_parts h' with rfl | h'
              · exact hfree w ha
              · exact hs1.apart w v hwv a ha h'
            · rw [point_other _ _ hv]; exact hs1.apart w v hwv a ha
        · intro w a ha
          rw [point_next, hnext]
          by_cases hw : w = y
          · subst hw
            rw [point_same] at ha
            rcases mem_insert_parts ha with rfl | ha
            · exact hbel
            · exact hnext ▸ hs1.below w a ha
          · rw [point_other _ _ hw] at ha
            exact hnext ▸ hs1.below w a ha
      · rw [point_val, insertIdx_take_drop _ _ _ (by rw [val_length]; exact hj), ← hheap]
        congr 2
        simp [St.val, List.map_take, List.map_drop]
    · rw [insertBlocks_ub _ _ hj, if_neg hj]
      exact Or.inr ⟨rfl, rfl⟩
  · rw [removeBlocks_ub h, dif_neg (by simpa only [val_length] using h)]
    exact Or.inr ⟨rfl, rfl⟩

theorem step_map {s : St K} (hs : Sep s) (x : Nat) (f : List K → List K) :
    Agree (exec s (.map x f)) (Spec.exec s.val (.map x f)) := by
  obtain ⟨h1, h2⟩ := keep_spec (fun o _ => f o) s hs x [] ((s.vars x).map fun a => (some a, a))
    (by rw [targets_diag]; exact List.Sublist.refl _) (clear_diag _ (hs.nodup x)) (fun _ _ => Or.inr fun _ _ _ => rfl)
  refine Or.inl ⟨_, rfl, h1, ?_⟩
  rw [h2]
  simp [Spec.exec, St.val]
  rfl

theorem step_zip {s : St K} (hs : Sep s) (x y : Nat) (f : List K → List K → List K) :
    Agree (exec s (.zip x y f)) (Spec.exec s.val (.zip x y f)) := by
  simp only [exec, Spec.exec, val_length]
  by_cases h : (s.vars x).length ≤ (s.vars y).length
  · rw [if_pos h, if_pos h]
    obtain ⟨h1, h2⟩ := keep_spec f s hs x [] (((s.vars x).map some).zip (s.vars y))
      (by rw [targets_zip _ _ h]; exact List.Sublist.refl _) (sep_zip hs x y h)
      (fun r hr => Or.inl (hs.below y _ (List.of_mem_zip (a := r.1) (b := r.2) hr).2))
    refine Or.inl ⟨_, rfl, h1, ?_⟩
    rw [h2, values_zip]
    rfl
  · rw [if_neg h, if_neg h]
    exact Or.inr ⟨rfl, rfl⟩

theorem write_val {s : St K} (hs : Sep s) (x b : Nat) (h : b < (s.vars x).length) (v : List K) :
    (s.write (s.vars x)[b] v).val = Spec.put s.val x ((s.val x).set b v) := by
  funext w
  by_cases hw : w = x
  · subst hw
    simp only [St.val, St.write, Spec.put, if_true]
    refine List.ext_getElem (by simp) fun k hk1 hk2 => ?_
    simp only [List.length_map] at hk1
    simp only [List.getElem_map, List.getElem_set]
    by_cases hb : b = k
    · subst hb; simp
    · rw [if_neg hb, if_neg]
      intro he
      exact hb ((hs.nodup w).getElem_inj_iff.1 he).symm
  · simp only [St.val, St.write, Spec.put, if_neg hw]
    refine List.map_congr_left fun a ha => ?_
    rw [if_neg]
    rintro rfl
    exact hs.apart w x hw _ ha (List.getElem_mem h)

theorem step_put {s : St K} (hs : Sep s) (x b : Nat) (f : List K → List K) :
    Agree (exec s (.put x b f)) (Spec.exec s.val (.put x b f)) := by
  simp only [exec, Spec.exec]
  by_cases h : b < (s.vars x).length
  · rw [dif_pos (by rw [val_length]; exact h)]
    have : Res.index (s.vars x) b = .ok (s.vars x)[b] := by simp [Res.index, List.getElem?_eq_getElem h]
    rw [this, Res.ok_bind]
    refine Or.inl ⟨_, rfl, ⟨hs.nodup, hs.apart, hs.below⟩, ?_⟩
    rw [write_val hs x b h]
    simp [St.val]
  · rw [dif_neg (by rw [val_length]; exact h)]
    have : Res.index (s.vars x) b = .ub := by simp [Res.index, List.getElem?_eq_none (Nat.le_of_not_lt h)]
    rw [this]
    exact Or.inr ⟨rfl, rfl⟩

theorem step_agree {s : St K} (hs : Sep s) (op : Op K) (ho : Spec.owning op = true) : Agree (exec s op) (Spec.exec s.val op) := by
  cases op with
  | create x n => exact step_create hs x n
  | copy x y => exact step_copy hs x y
  | assign x y => exact step_assign hs x y
  | move x y => exact step_move hs x y
  | swap x y => exact step_swap hs x y
  | resize x n => exact step_resize hs x n
  | like x y => exact step_like hs x y
  | shift x i j => exact step_shift hs x i j
  | remove x i => exact step_remove hs x i
  | transfer x i y j => exact step_transfer hs x i y j
  | insert x j y i => simp [Spec.owning] at ho
  | view z y b e => simp [Spec.owning] at ho
  | gather z ys => simp [Spec.owning] at ho
  | map x f => exact step_map hs x f
  | zip x y f => exact step_zip hs x y f
  | put x b f => exact step_put hs x b f

theorem run_agree : ∀ (ops : List (Op K)) {s : St K}, Sep s → (∀ op ∈ ops, Spec.owning op = true) →
    Agree (run ops s) (Spec.run ops s.val) := by
  intro ops
  induction ops with
  | nil => intro s hs _; exact Or.inl ⟨s, rfl, hs, rfl⟩
  | cons op ops ih =>
    intro s hs ho
    simp only [run, Spec.run, List.foldlM_cons]
    rcases step_agree hs op (ho op List.mem_cons_self) with ⟨s', h1, h2, h3⟩ | ⟨h1, h2⟩
    · rw [h1, h3, Res.ok_bind, Res.ok_bind]
      exact ih h2 fun o h => ho o (List.mem_cons_of_mem _ h)
    · rw [h1, h2]
      exact Or.inr ⟨rfl, rfl⟩

theorem sep_init : Sep (St.init : St K) := ⟨fun _ => List.nodup_nil, fun _ _ _ _ h => by simp [St.init] at h, fun _ _ h => by simp [St.init] at h⟩

theorem keep_frame (f : List K → List K → List K) (s : St K) (x : Nat) (pre : List Nat) (l : List (Option Nat × Nat)) {w : Nat} (hw : w ≠ x)
    (hb : ∀ a ∈ s.vars w, a < s.next) (hd : ∀ a ∈ targets l, a ∉ s.vars w) :
    (keep x pre (loop f s l)).vars w = s.vars w ∧ (keep x pre (loop f s l)).val w = s.val w := by
  obtain ⟨f1, _, f3⟩ := loop_frame f l s
  have h1 : (keep x pre (loop f s l)).vars w = s.vars w := by rw [keep, point_other _ _ hw, f1]
  refine ⟨h1, ?_⟩
  rw [St.val, h1]
  exact List.map_congr_left fun a ha => f3 a (hb a ha) fun h => hd a h ha

theorem point_frame (s : St K) (x : Nat) (l : List Nat) {w : Nat} (hw : w ≠ x) :
    (s.point x l).vars w = s.vars w ∧ (s.point x l).val w = s.val w := by
  simp [St.val, hw]

theorem exec_frame {s s' : St K} {op : Op K} (h : exec s op = .ok s') {w : Nat} (hw : w ∉ Spec.changed op)
    (hb : ∀ a ∈ s.vars w, a < s.next) (hd : ∀ x ∈ Spec.written op, ∀ a ∈ s.vars x, a ∉ s.vars w) :
    s'.vars w = s.vars w ∧ s'.val w = s.val w := by
  cases op with
  | create x n =>
    obtain rfl := Res.ok.inj h
    exact keep_frame _ s x _ _ (by simpa [Spec.changed] using hw) hb (by rw [targets_replicate]; simp)
  | copy x y =>
    simp only [exec] at h
    split at h
    · simp at h
    obtain rfl := Res.ok.inj h
    exact keep_frame _ s x _ _ (by simpa [Spec.changed] using hw) hb (by rw [targets_fresh]; simp)
  | assign x y =>
    obtain rfl := Res.ok.inj h
    refine keep_frame _ s x _ _ (by simpa [Spec.changed] using hw) hb fun a ha => ?_
    rw [targets_resized] at ha
    exact hd x (by simp [Spec.written]) a (List.mem_of_mem_take ha)
  | move x y =>
    simp only [exec] at h
    split at h
    · simp at h
    obtain rfl := Res.ok.inj h
    simp only [Spec.changed, List.mem_cons, List.not_mem_nil, or_false, not_or] at hw
    simp [St.val, hw.1, hw.2]
  | swap x y =>
    obtain rfl := Res.ok.inj h
    simp only [Spec.changed, List.mem_cons, List.not_mem_nil, or_false, not_or] at hw
    simp [St.val, hw.1, hw.2]
  | resize x n =>
    obtain rfl := Res.ok.inj h
    exact keep_frame _ s x _ _ (by simpa [Spec.changed] using hw) hb (by rw [targets_replicate]; simp)
  | like x y =>
    obtain rfl := Res.ok.inj h
    refine keep_frame _ s x _ _ (by simpa [Spec.changed] using hw) hb fun a ha => ?_
    rw [targets_resized] at ha
    exact hd x (by simp [Spec.written]) a (List.mem_of_mem_take ha)
  | shift x i j =>
    obtain ⟨l, _, h⟩ := Res.bind_eq_ok.1 h
    obtain rfl := Res.ok.inj h
    exact point_frame s x l (by simpa [Spec.changed] using hw)
  | remove x i =>
    obtain ⟨l, _, h⟩ := Res.bind_eq_ok.1 h
    obtain rfl := Res.ok.inj h
    exact point_frame s x _ (by simpa [Spec.changed] using hw)
  | transfer x i y j =>
    obtain ⟨r, _, h⟩ := Res.bind_eq_ok.1 h
    obtain ⟨l, _, h⟩ := Res.bind_eq_ok.1 h
    obtain rfl := Res.ok.inj h
    simp only [Spec.changed, List.mem_cons, List.not_mem_nil, or_false, not_or] at hw
    simp [St.val, hw.1, hw.2]
  | insert x j y i =>
    obtain ⟨p, _, h⟩ := Res.bind_eq_ok.1 h
    obtain ⟨l, _, h⟩ := Res.bind_eq_ok.1 h
    obtain rfl := Res.ok.inj h
    exact point_frame s x _ (by simpa [Spec.changed] using hw)
  | view z y b e =>
    simp only [exec] at h
    split at h
    · obtain rfl := Res.ok.inj h
      exact point_frame s z _ (by simpa [Spec.changed] using hw)
    · simp at h
  | gather z ys =>
    obtain rfl := Res.ok.inj h
    exact point_frame s z _ (by simpa [Spec.changed] using hw)
  | map x f =>
    obtain rfl := Res.ok.inj h
    refine keep_frame _ s x _ _ (by simpa [Spec.changed] using hw) hb fun a ha => ?_
    rw [targets_diag] at ha
    exact hd x (by simp [Spec.written]) a ha
  | zip x y f =>
    simp only [exec] at h
    split at h
    · rename_i hl
      obtain rfl := Res.ok.inj h
      refine keep_frame _ s x _ _ (by simpa [Spec.changed] using hw) hb fun a ha => ?_
      rw [targets_zip _ _ hl] at ha
      exact hd x (by simp [Spec.written]) a ha
    · simp at h
  | put x b f =>
    obtain ⟨a, ha, h⟩ := Res.bind_eq_ok.1 h
    obtain rfl := Res.ok.inj h
    refine ⟨rfl, ?_⟩
    simp only [St.val, St.write]
    refine List.map_congr_left fun c hc => ?_
    rw [if_neg]
    rintro rfl
    have hm : c ∈ s.vars x := by
      simp only [Res.index] at ha
      cases hx : (s.vars x)[b]? with
      | none => simp [hx] at ha
      | some v =>
        rw [hx] at ha
        obtain rfl := Res.ok.inj ha
        exact List.mem_of_getElem? hx
    exact hd x (by simp [Spec.written]) c hm hc

/-- The pointers of a loop without null pointers. -/
theorem loop_all_some (f : List K → List K → List K) : ∀ (l : List (Option Nat × Nat)) (s : St K), (∀ r ∈ l, r.1 ≠ none) →
    (loop f s l).2 = targets l := by
  intro l
  induction l with
  | nil => intro s _; rfl
  | cons h l ih =>
    obtain ⟨q, p⟩ := h
    intro s hl
    cases q with
    | none => exact absurd rfl (hl _ List.mem_cons_self)
    | some a =>
      rw [loop, targets_some]
      simp only
      rw [ih _ fun r hr => hl r (List.mem_cons_of_mem _ hr)]

theorem point_id (s : St K) (x : Nat) : (s.point x (s.vars x)).vars = s.vars := by
  funext w
  simp only [St.point]
  split
  · rename_i h; rw [h]
  · rfl

theorem keep_vars (f : List K → List K → List K) (s : St K) (x : Nat) (l : List (Option Nat × Nat)) (hl : ∀ r ∈ l, r.1 ≠ none)
    (ht : targets l = s.vars x) : (keep x [] (loop f s l)).vars = s.vars := by
  have h1 := (loop_frame f l s).1
  rw [keep, loop_all_some f l s hl, ht, List.nil_append, ← h1]
  exact point_id _ x

theorem zip_some (xs ys : List Nat) : ∀ r ∈ (xs.map some).zip ys, r.1 ≠ none := by
  intro r hr h
  have := (List.of_mem_zip (a := r.1) (b := r.2) hr).1
  rw [h] at this
  simp at this

theorem diag_some (xs : List Nat) : ∀ r ∈ xs.map (fun a => (some a, a)), r.1 ≠ none := by
  intro r hr h
  obtain ⟨a, _, rfl⟩ := List.mem_map.1 hr
  simp at h

theorem content_vars {s s' : St K} {op : Op K} (hc : Spec.content op = true) (h : exec s op = .ok s') : s'.vars = s.vars := by
  cases op with
  | map x f =>
    obtain rfl := Res.ok.inj h
    exact keep_vars _ s x _ (diag_some _) (targets_diag _)
  | zip x y f =>
    simp only [exec] at h
    split at h
    · rename_i hl
      obtain rfl := Res.ok.inj h
      exact keep_vars _ s x _ (zip_some _ _) (targets_zip _ _ hl)
    · simp at h
  | put x b f =>
    obtain ⟨a, ha, h⟩ := Res.bind_eq_ok.1 h
    obtain rfl := Res.ok.inj h
    rfl
  | _ => simp [Spec.content] at hc

theorem content_run : ∀ (ops : List (Op K)) {s s' : St K}, (∀ op ∈ ops, Spec.content op = true) → run ops s = .ok s' → s'.vars = s.vars := by
  intro ops
  induction ops with
  | nil => intro s s' _ h; obtain rfl := Res.ok.inj h; rfl
  | cons op ops ih =>
    intro s s' hc h
    obtain ⟨t, h1, h2⟩ := Res.bind_eq_ok.1 h
    rw [ih (fun o ho => hc o (List.mem_cons_of_mem _ ho)) h2, content_vars (hc op List.mem_cons_self) h1]

/-- A loop over all blocks of `z`, a part of the blocks of `y`. -/
theorem keep_part (f : List K → List K → List K) (s : St K) (y z : Nat) (l : List (Option Nat × Nat)) (A B : List Nat)
    (hy : s.vars y = A ++ s.vars z ++ B) (hn : (s.vars y).Nodup) (hb : ∀ a ∈ s.vars y, a < s.next)
    (hl : ∀ r ∈ l, r.1 ≠ none) (ht : targets l = s.vars z) (hc : Clear l) (hp : ∀ r ∈ l, r.2 < s.next ∨ ∀ o v w, f o v = f o w) :
    (keep z [] (loop f s l)).val z = l.map (fun r => f (old s r.1) (s.heap r.2)) ∧
    (keep z [] (loop f s l)).val y = A.map s.heap ++ l.map (fun r => f (old s r.1) (s.heap r.2)) ++ B.map s.heap := by
  have hv := keep_vars f s z l hl ht
  have hheap : (keep z [] (loop f s l)).heap = (loop f s l).1.heap := rfl
  rw [hy] at hn hb
  have hn1 := List.nodup_append.1 hn
  have hn2 := List.nodup_append.1 hn1.1
  have hz : (s.vars z).map (loop f s l).1.heap = l.map fun r => f (old s r.1) (s.heap r.2) := by
    have := loop_values f l s (by rw [ht]; exact fun a ha => hb a (by simp [ha])) (by rw [ht]; exact hn2.2.1) hc hp
    rwa [loop_all_some f l s hl, ht] at this
  have hf := (loop_frame f l s).2.2
  refine ⟨by rw [St.val, hv, hheap, hz], ?_⟩
  rw [St.val, hv, hheap, hy, List.map_append, List.map_append, hz]
  congr 1
  · congr 1
    exact List.map_congr_left fun a ha => hf a (hb a (by simp [ha])) (by
      rw [ht]; exact fun h => hn2.2.2 a ha a h rfl)
  · exact List.map_congr_left fun a ha => hf a (hb a (by simp [ha])) (by
      rw [ht]; exact fun h => hn1.2.2 a (by simp [h]) a ha rfl)

end step

end Verif.Shared
