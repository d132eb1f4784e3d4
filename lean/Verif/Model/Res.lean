/-!
# Outcomes of C++ calls

A modelled C++ function either returns normally, leaves by a C++ exception
(`AssertThrow`, `throw`, `std::map::at`, `std::vector::at`) or runs into undefined behaviour
(out-of-bounds `operator[]`, dereferencing `end()`, unrepresentable conversions, ...).
Undefined behaviour is a distinct outcome so that theorems have to rule it out explicitly.
-/
namespace Verif

/-- The exceptions distinguished by the model. -/
inductive Exc
  /-- `GrainTracker::ExcGrainsInconsistency`, tracking.h:33 -/
  | grainsInconsistency
  /-- `AssertThrow(..., ExcInternalError / ExcMessage / ...)` -/
  | assertThrow
  /-- `std::out_of_range` thrown by `at` -/
  | outOfRange
  /-- `ExcNewtonDidNotConverge`, lac/newton.h -/
  | newtonDidNotConverge
  /-- `std::invalid_argument` thrown by `std::stod` and `std::stoi` -/
  | invalidArgument
  /-- `boost::archive::archive_exception` -/
  | archive
  deriving DecidableEq, Repr

/-- Outcome of a call. -/
inductive Res (α : Type _)
  | ok (a : α)
  | exc (e : Exc)
  | ub
  deriving DecidableEq, Repr

namespace Res

@[simp] def bind {α β} : Res α → (α → Res β) → Res β
  | ok a, f => f a
  | exc e, _ => exc e
  | ub, _ => ub

instance : Monad Res where
  pure := ok
  bind := bind

@[simp] theorem pure_def {α} (a : α) : (pure a : Res α) = ok a := rfl
@[simp] theorem ok_bind {α β} (a : α) (f : α → Res β) : (ok a >>= f) = f a := rfl
@[simp] theorem exc_bind {α β} (e : Exc) (f : α → Res β) : ((exc e : Res α) >>= f) = exc e := rfl
@[simp] theorem ub_bind {α β} (f : α → Res β) : ((ub : Res α) >>= f) = ub := rfl
@[simp] theorem map_ok {α β} (f : α → β) (a : α) : (f <$> (ok a : Res α)) = ok (f a) := rfl

theorem bind_eq_ok {α β} {x : Res α} {f : α → Res β} {b : β} :
    (x >>= f) = ok b ↔ ∃ a, x = ok a ∧ f a = ok b := by
  cases x <;> simp

instance : LawfulMonad Res where
  map_const := rfl
  id_map x := by cases x <;> rfl
  seqLeft_eq x y := by cases x <;> cases y <;> rfl
  seqRight_eq x y := by cases x <;> cases y <;> rfl
  pure_seq g x := by cases x <;> rfl
  bind_pure_comp f x := by cases x <;> rfl
  bind_map f x := by cases f <;> cases x <;> rfl
  pure_bind x f := rfl
  bind_assoc x f g := by cases x <;> rfl

/-- `AssertThrow(cond, e)` -/
def assertThrow (c : Bool) (e : Exc := .assertThrow) : Res Unit :=
  if c then ok () else exc e

/-- `v[i]` on a `std::vector` without bounds check. -/
def index {α} (l : List α) (i : Nat) : Res α :=
  match l[i]? with
  | some a => ok a
  | none => ub

/-- `m.at(k)`, the failing lookup throws `std::out_of_range`. -/
def at? {α} : Option α → Res α
  | some a => ok a
  | none => exc .outOfRange

@[simp] theorem at?_some {α} (a : α) : at? (some a) = ok a := rfl
@[simp] theorem at?_none {α} : at? (none : Option α) = exc .outOfRange := rfl

theorem index_ok {α} {l : List α} {i : Nat} (h : i < l.length) : index l i = ok l[i] := by
  simp [index, h]

theorem index_eq_ok {α} {l : List α} {i : Nat} {a : α} : index l i = ok a ↔ l[i]? = some a := by
  unfold index; split <;> simp_all

/-- Invariant rule for `foldlM` in `Res`: if every step from a state satisfying `I` succeeds and
re-establishes `I`, the whole loop succeeds. -/
theorem foldlM_inv {α σ} (I : σ → Prop) (f : σ → α → Res σ) :
    ∀ (l : List α) (s : σ), I s → (∀ s a, a ∈ l → I s → ∃ s', f s a = ok s' ∧ I s') →
      ∃ s', l.foldlM f s = ok s' ∧ I s'
  | [], s, hs, _ => ⟨s, rfl, hs⟩
  | a :: l, s, hs, hstep => by
    obtain ⟨s', hs', hI⟩ := hstep s a (by simp) hs
    obtain ⟨s'', h1, h2⟩ := foldlM_inv I f l s' hI (fun s b hb => hstep s b (by simp [hb]))
    exact ⟨s'', by simp [List.foldlM_cons, hs', h1], h2⟩

/-- Invariant rule indexed by the processed prefix. -/
theorem foldlM_inv_prefix {α σ} (f : σ → α → Res σ) (I : List α → σ → Prop) :
    ∀ (l : List α) (pre : List α) (s : σ), I pre s →
      (∀ (p : List α) (a : α) (q : List α) (s : σ), pre ++ l = p ++ a :: q → I p s →
        ∃ s', f s a = ok s' ∧ I (p ++ [a]) s') →
      ∃ s', l.foldlM f s = ok s' ∧ I (pre ++ l) s'
  | [], pre, s, hs, _ => ⟨s, rfl, by simpa using hs⟩
  | a :: l, pre, s, hs, hstep => by
    obtain ⟨s', hs', hI⟩ := hstep pre a l s rfl hs
    obtain ⟨s'', h1, h2⟩ := foldlM_inv_prefix f I l (pre ++ [a]) s' hI
      (fun p b q s h => hstep p b q s (by simpa using h))
    exact ⟨s'', by simp [List.foldlM_cons, hs', h1], by simpa using h2⟩

end Res
end Verif
