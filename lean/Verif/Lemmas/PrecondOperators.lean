/-
Closed forms of the sintering kernel over any field, sums over cells, for C86 to C90.
-/
import Verif.Model.PrecondOperators
import Verif.Lemmas.FreeEnergy
import Mathlib.Tactic.Ring
import Mathlib.Tactic.Module
import Mathlib.Tactic.Abel
import Mathlib.Algebra.BigOperators.Group.List.Basic
import Mathlib.Algebra.BigOperators.Group.List.Lemmas

namespace Verif.Precond

open Verif.FreeEnergy Verif.Mobility Verif.SinteringKernel

variable {K : Type} [Field K] {V : Type} [AddCommGroup V] [Module K V]

theorem zip_map_right_self {α β : Type} (l : List α) (f : α → β) : l.zip (l.map f) = l.map fun a => (a, f a) := by
  induction l with
  | nil => rfl
  | cons a l ih => simp [ih]

theorem advect_sum (c : K) (g : V) (l : List (Option V × K × V)) :
    advect c g l = (g - c • (l.map fun t => t.1.getD 0).sum, l.map fun t => t.2.2 - t.2.1 • t.1.getD 0) := by
  induction l generalizing g with
  | nil => simp [advect]
  | cons t l ih =>
    rcases t with ⟨_ | v, e, h⟩
    · simp [advect, ih]
    · simp [advect, ih, smul_add, sub_sub]

theorem mixedLoop_sum (fe : Eval K) (a : K) (l : List (K × K)) :
    mixedLoop fe a l = a - (l.map fun t => fe.d2f_dcdetai t.1 * t.2).sum := by
  induction l generalizing a with
  | nil => simp [mixedLoop]
  | cons t l ih =>
    rcases t with ⟨e, v⟩
    simp [mixedLoop, ih]
    ring

theorem factorLoop_zero (s a : K) (l : List (K × K)) (h : ∀ t ∈ l, t.2 = 0) : factorLoop s a l = a := by
  induction l generalizing a with
  | nil => rfl
  | cons t l ih =>
    rcases t with ⟨e, d⟩
    have : d = 0 := h (e, d) (by simp)
    subst this
    simp only [factorLoop, mul_zero, add_zero]
    exact ih a fun t ht => h t (List.mem_cons_of_mem _ ht)

/-- The evaluator at a list of order parameters. -/
def feAt (p : Par K) (c : K) (etas : List K) : Eval K :=
  { A := p.A, B := p.B, c := c, p2 := (etas.map (· ^ 2)).sum, p3 := none }

theorem eval_feAt (p : Par K) (c mu : K) (etas : List K) :
    FreeEnergy.eval false p.A p.B (c :: mu :: etas) etas.length = .ok (feAt p c etas) := by
  have := eval_ok false p.A p.B c mu etas []
  simpa [feAt] using this

variable [LinearOrder K]

theorem vmult_closed (p : Par K) (x : SinteringKernel.Point K V) (d : Incr K V) :
    vmult p x d = .ok
      { valC := d.c * p.weight
        gradC := applyMDerivative p.mob x.c ((x.grains.zip d.etas).map fun t => (t.1.eta, t.2.1)) x.gradMu d.c d.gradMu -
          d.c • ((x.grains.zip d.etas).map fun t => t.1.vel.getD 0).sum
        valMu := p.weightAlg * d.mu - (feAt p x.c (x.grains.map (·.eta))).d2f_dc2 * d.c -
          ((x.grains.zip d.etas).map fun t => p.B * 12 * t.1.eta * (t.1.eta - 1) * t.2.1).sum
        gradMu := (-p.kappaC) • d.gradC
        etas := (x.grains.zip d.etas).map fun t =>
          (t.2.1 * p.weight + p.mob.L * (p.B * 12 * t.1.eta * (t.1.eta - 1) * d.c +
              (feAt p x.c (x.grains.map (·.eta))).d2f_detai2 t.1.eta * t.2.1) +
            (p.mob.L * 24 * p.B) * t.1.eta *
              (((x.grains.zip d.etas).map fun t => t.1.eta * t.2.1).sum - t.1.eta * t.2.1),
           (p.mob.L * p.kappaP) • t.2.2 - t.2.1 • t.1.vel.getD 0) } := by
  unfold vmult
  simp only [eval_feAt, Res.ok_bind, zip_map_right_self, List.map_map, Function.comp_def, advect_sum, List.zip_map',
    mixedLoop_sum, applyD2f_eq, Eval.d2f_dcdetai]
  rfl

omit [LinearOrder K] in
theorem velLoop (l : List (Grain K V)) (c : K) (g : V) :
    l.foldl (advectCH c) g = g - c • (l.map fun t => t.vel.getD 0).sum := by
  induction l generalizing g with
  | nil => simp
  | cons t l ih =>
    rw [List.foldl_cons, ih]
    rcases h : t.vel with _ | v
    · simp [h, advectCH]
    · simp [h, advectCH, smul_add, sub_sub]

omit [LinearOrder K] in
/-- Sum over all entries except number `i`. -/
theorem offDiag {α : Type} (l : List α) (f : α → K) (i : Nat) (v : K) (n : Nat) :
    (l.zipIdx n).foldl (fun acc sj => if i ≠ sj.2 then acc + f sj.1 else acc) v =
      v + (l.map f).sum - (if n ≤ i then (match l[i - n]? with | some a => f a | none => 0) else 0) := by
  induction l generalizing v n with
  | nil => simp
  | cons a l ih =>
    rw [List.zipIdx_cons, List.foldl_cons, ih]
    by_cases h : i = n
    · subst h
      have : ¬ (i + 1 ≤ i) := by omega
      simp [this]
      ring
    · by_cases hle : n ≤ i
      · have h1 : n + 1 ≤ i := by omega
        have h2 : i - n = (i - (n + 1)) + 1 := by omega
        rw [if_pos h1, if_pos hle, h2, List.getElem?_cons_succ, if_pos (show i ≠ n from h)]
        simp [add_assoc]
      · have h1 : ¬ n + 1 ≤ i := by omega
        rw [if_neg h1, if_neg hle, if_pos (show i ≠ n from h)]
        simp [add_assoc]

omit [LinearOrder K] in
/-- A sum with one term. -/
theorem oneTerm {α β : Type} (l : List α) (b : Nat) (a : α) (ha : l[b]? = some a) (z y : β) (f : α × β → K) (hz : ∀ a, f (a, z) = 0) :
    ((l.zip ((List.range l.length).map fun i => if i = b then y else z)).map f).sum = f (a, y) := by
  induction l generalizing b with
  | nil => simp at ha
  | cons x l ih =>
    simp only [List.length_cons, List.range_succ_eq_map, List.map_cons, List.map_map, Function.comp_def, List.zip_cons_cons,
      List.sum_cons]
    cases b with
    | zero =>
      simp only [List.getElem?_cons_zero, Option.some.injEq] at ha
      subst ha
      have : ∀ l' : List α, ((l'.zip ((List.range l'.length).map fun _ => z)).map f).sum = 0 := by
        intro l'
        apply List.sum_eq_zero
        intro t ht
        obtain ⟨⟨u, v⟩, hu, rfl⟩ := List.mem_map.1 ht
        have := (List.of_mem_zip hu).2
        simp only [List.mem_map] at this
        obtain ⟨_, _, rfl⟩ := this
        exact hz u
      simpa using this l
    | succ b =>
      simp only [List.getElem?_cons_succ] at ha
      have := ih b ha
      simpa [hz] using this

end Verif.Precond
