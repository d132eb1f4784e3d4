/-
Lemmas on other numbers of order parameters.
-/
import Verif.Spec.Relabel
import Verif.Lemmas.FreeEnergy
import Mathlib.Algebra.BigOperators.Group.List.Basic
import Mathlib.Algebra.BigOperators.Ring.Finset
import Mathlib.Algebra.BigOperators.Fin
import Mathlib.Tactic.Ring
import Mathlib.Data.List.FinRange

set_option linter.unusedSectionVars false

namespace Verif.Relabel

open Finset Verif.SinteringKernel Verif.Energy Verif.Relabel.Spec
open Verif.Apps (QPt value gradient)

variable {K : Type} [Field K] [LinearOrder K]

theorem rl_zip_map_self {α β : Type} (l : List α) (f : α → β) : l.zip (l.map f) = l.map fun a => (a, f a) := by
  induction l with
  | nil => rfl
  | cons a l ih => simp [ih]

section kernel
variable {V : Type} [AddCommGroup V] [Module K V]

theorem rl_advect_eq (c : K) (g : V) (l : List (Option V × K × V)) :
    advect c g l = (g - c • (l.map fun t => t.1.getD 0).sum, l.map fun t => t.2.2 - t.2.1 • t.1.getD 0) := by
  induction l generalizing g with
  | nil => simp [advect]
  | cons t l ih =>
    rcases t with ⟨_ | v, e, h⟩
    · simp [advect, ih]
    · simp [advect, ih, smul_add, sub_sub]

/-- Sum over all pairs. -/
def pairs : List K → K
  | [] => 0
  | e :: r => e * r.sum + pairs r

theorem foldl_mul (e a : K) (l : List K) : l.foldl (fun a f => a + e * f) a = a + e * l.sum := by
  induction l generalizing a with
  | nil => simp
  | cons f l ih => rw [List.foldl_cons, ih, List.sum_cons]; ring

theorem pairLoop_eq (a : K) (pre l : List K) : Mobility.pairLoop a pre l = a + pre.sum * l.sum + pairs l := by
  induction l generalizing a pre with
  | nil => simp [Mobility.pairLoop, pairs]
  | cons e l ih =>
    rw [Mobility.pairLoop, ih, foldl_mul, List.sum_append, List.sum_cons, pairs]
    simp only [List.sum_cons, List.sum_nil]
    ring

theorem pairs_perm {l l' : List K} (h : l.Perm l') : pairs l = pairs l' := by
  induction h with
  | nil => rfl
  | cons e h ih => rw [pairs, pairs, ih, h.sum_eq]
  | swap a b l => simp only [pairs, List.sum_cons]; ring
  | trans _ _ h1 h2 => rw [h1, h2]

theorem scalarM_perm (k : Mobility.Coeff K) (c : K) {l l' : List K} (h : l.Perm l') : Mobility.scalarM k c l = Mobility.scalarM k c l' := by
  unfold Mobility.scalarM
  rw [pairLoop_eq, pairLoop_eq, pairs_perm h, h.sum_eq]

/-- The first derivative with respect to the concentration from the sums of powers. -/
def dfc (A B c p2 p3 : K) : K := A * (c * c) * (2 * c - 2) + 2 * A * c * ((-c + 1) * (-c + 1)) + B * (2 * c - 6 * p2 + 4 * p3)

/-- The row of an order parameter. -/
def row (p : Par K) (mode : Nat) (c p2 : K) (g : Grain K V) : K × V :=
  ((let v := p.mob.L * (g.eta * (p.B * 12) * (g.eta * (1 * c - 2) + (-c + 1) + p2))
    let v := if 1 ≤ mode then v + g.eta * p.weight else v
    if mode = 2 then v + g.buf else v), (p.mob.L * p.kappaP) • g.grad - g.eta • g.vel.getD 0)

theorem rl_residual_eq (p : Par K) (mode : Nat) (x : Point K V) :
    SinteringKernel.residual p mode x = .ok
      { valC := (if mode = 2 then (if 1 ≤ mode then x.c * p.weight else 0) + x.bufC else if 1 ≤ mode then x.c * p.weight else 0)
        gradC := Mobility.scalarM p.mob x.c (x.grains.map (·.eta)) • x.gradMu - x.c • (x.grains.map fun g => g.vel.getD 0).sum
        valMu := p.weightAlg * x.mu - dfc p.A p.B x.c ((x.grains.map fun g => g.eta ^ 2).sum) ((x.grains.map fun g => g.eta ^ 3).sum)
        gradMu := (-p.kappaC) • x.gradC
        etas := x.grains.map (row p mode x.c ((x.grains.map fun g => g.eta ^ 2).sum)) } := by
  have h := FreeEnergy.eval_ok true p.A p.B x.c x.mu (x.grains.map (·.eta)) []
  rw [List.append_nil] at h
  unfold SinteringKernel.residual
  simp only [h, Res.ok_bind, FreeEnergy.Eval.df_dc, if_true, FreeEnergy.Eval.df_detai, rl_zip_map_self, List.map_map,
    Function.comp_def, rl_advect_eq, List.zip_map', dfc, Mobility.applyM]
  rfl

theorem rl_mixed (fe : FreeEnergy.Eval K) (a : K) (l : List (K × K)) : mixedLoop fe a l = a - (l.map fun t => fe.d2f_dcdetai t.1 * t.2).sum := by
  induction l generalizing a with
  | nil => simp [mixedLoop]
  | cons t l ih =>
    rcases t with ⟨e, v⟩
    simp [mixedLoop, ih]
    ring

theorem rl_factor (s a : K) (l : List (K × K)) : Mobility.factorLoop s a l = a + (l.map fun t => (s - t.1) * t.2).sum := by
  induction l generalizing a with
  | nil => simp [Mobility.factorLoop]
  | cons t l ih =>
    rcases t with ⟨e, v⟩
    simp [Mobility.factorLoop, ih]
    ring

theorem rl_foldl_fst (a : K) (l : List (K × K)) : l.foldl (fun a e => a + e.1) a = a + (l.map (·.1)).sum := by
  induction l generalizing a with
  | nil => simp
  | cons t l ih => rw [List.foldl_cons, ih, List.map_cons, List.sum_cons]; ring

/-- The row of an order parameter in the tangent. -/
def trow (p : Par K) (c dc p2 sd : K) (t : Grain K V × K × V) : K × V :=
  (t.2.1 * p.weight + p.mob.L * (p.B * 12 * t.1.eta * (t.1.eta - 1) * dc +
      (p.B * (12 - 12 * c + 2 * t.1.eta * (12 * c - 24) + 24 * (t.1.eta * t.1.eta) + 12 * p2)) * t.2.1) +
    (p.mob.L * 24 * p.B) * t.1.eta * (sd - t.1.eta * t.2.1),
   (p.mob.L * p.kappaP) • t.2.2 - t.2.1 • t.1.vel.getD 0)

theorem rl_vmult_eq (p : Par K) (x : Point K V) (d : Incr K V) :
    vmult p x d = .ok
      { valC := d.c * p.weight
        gradC := Mobility.scalarM p.mob x.c ((x.grains.zip d.etas).map fun t => t.1.eta) • d.gradMu +
          (Mobility.dMdc p.mob x.c * d.c + (2 * p.mob.Mgb) * ((x.grains.zip d.etas).map fun t => (((x.grains.zip d.etas).map fun t => t.1.eta).sum - t.1.eta) * t.2.1).sum) • x.gradMu -
          d.c • ((x.grains.zip d.etas).map fun t => t.1.vel.getD 0).sum
        valMu := p.weightAlg * d.mu - (2 * p.A * (x.c * x.c) + 4 * p.A * x.c * (2 * x.c - 2) + 2 * p.A * ((-x.c + 1) * (-x.c + 1)) + 2 * p.B) * d.c -
          ((x.grains.zip d.etas).map fun t => p.B * 12 * t.1.eta * (t.1.eta - 1) * t.2.1).sum
        gradMu := (-p.kappaC) • d.gradC
        etas := (x.grains.zip d.etas).map (trow p x.c d.c ((x.grains.map fun g => g.eta ^ 2).sum) (((x.grains.zip d.etas).map fun t => t.1.eta * t.2.1).sum)) } := by
  have h := FreeEnergy.eval_ok false p.A p.B x.c x.mu (x.grains.map (·.eta)) []
  rw [List.append_nil] at h
  unfold vmult
  simp only [h, Res.ok_bind, rl_zip_map_self, List.map_map, Function.comp_def, rl_advect_eq, List.zip_map', rl_mixed, FreeEnergy.applyD2f_eq,
    FreeEnergy.Eval.d2f_dcdetai, FreeEnergy.Eval.d2f_dc2, FreeEnergy.Eval.d2f_detai2, Mobility.applyMDerivative, rl_factor, rl_foldl_fst, zero_add]
  rfl

/-- The same result, rows under other numbers. -/
def Rel {m : Nat} (s : Equiv.Perm (Fin m)) (o o' : Out K V) : Prop :=
  o'.valC = o.valC ∧ o'.gradC = o.gradC ∧ o'.valMu = o.valMu ∧ o'.gradMu = o.gradMu ∧ ∀ g : Fin m, o'.etas.getD g (0, 0) = o.etas.getD (s g) (0, 0)

theorem getD_ofFn {α β : Type} {m : Nat} (f : Fin m → α) (r : α → β) (g : Fin m) (b : β) : ((List.ofFn f).map r).getD g b = r (f g) := by
  rw [List.getD_eq_getElem?_getD, List.getElem?_map, List.getElem?_eq_getElem (by simp)]
  simp

theorem sum_perm {α : Type} {l l' : List α} (h : l.Perm l') {M : Type} [AddCommMonoid M] (f : α → M) : (l.map f).sum = (l'.map f).sum := (h.map f).sum_eq

theorem rel_residual (p : Par K) (mode : Nat) {m : Nat} (s : Equiv.Perm (Fin m)) (G : Fin m → Grain K V) (x x' : Point K V) (hx : x.grains = List.ofFn G)
    (hx' : x'.grains = List.ofFn fun g => G (s g)) (h1 : x'.c = x.c) (h2 : x'.mu = x.mu) (h3 : x'.gradC = x.gradC) (h4 : x'.gradMu = x.gradMu)
    (h5 : x'.bufC = x.bufC) :
    ∃ o o', SinteringKernel.residual p mode x = .ok o ∧ SinteringKernel.residual p mode x' = .ok o' ∧ Rel s o o' ∧
      ∀ g, (G g).eta = 0 → (G g).grad = 0 → (G g).buf = 0 → o.etas.getD g (0, 0) = (0, 0) := by
  have hp : x'.grains.Perm x.grains := by rw [hx, hx']; exact Equiv.Perm.ofFn_comp_perm s G
  refine ⟨_, _, rl_residual_eq p mode x, rl_residual_eq p mode x', ⟨?_, ?_, ?_, ?_, ?_⟩, ?_⟩
  · rw [h1, h5]
  · dsimp only
    rw [h1, h4, scalarM_perm _ _ (hp.map _), sum_perm hp]
  · dsimp only
    rw [h1, h2, sum_perm hp, sum_perm hp]
  · rw [h3]
  · intro g
    dsimp only
    rw [sum_perm hp, h1, hx, hx', getD_ofFn, getD_ofFn]
  · intro g e1 e2 e3
    dsimp only
    rw [hx, getD_ofFn]
    simp [row, e1, e2, e3]

theorem rel_vmult (p : Par K) {m : Nat} (s : Equiv.Perm (Fin m)) (G : Fin m → Grain K V) (D : Fin m → K × V) (x x' : Point K V) (d d' : Incr K V)
    (hx : x.grains = List.ofFn G) (hx' : x'.grains = List.ofFn fun g => G (s g)) (hd : d.etas = List.ofFn D) (hd' : d'.etas = List.ofFn fun g => D (s g))
    (h1 : x'.c = x.c) (h4 : x'.gradMu = x.gradMu) (k1 : d'.c = d.c) (k2 : d'.mu = d.mu) (k3 : d'.gradC = d.gradC) (k4 : d'.gradMu = d.gradMu) :
    ∃ o o', vmult p x d = .ok o ∧ vmult p x' d' = .ok o' ∧ Rel s o o' ∧ ∀ g, (G g).eta = 0 → D g = (0, 0) → o.etas.getD g (0, 0) = (0, 0) := by
  have hp : x'.grains.Perm x.grains := by rw [hx, hx']; exact Equiv.Perm.ofFn_comp_perm s G
  have hz : x.grains.zip d.etas = List.ofFn fun g => (G g, D g) := by
    rw [hx, hd]
    refine List.ext_getElem (by simp) fun i hi hi' => by simp
  have hz' : x'.grains.zip d'.etas = List.ofFn fun g => (G (s g), D (s g)) := by
    rw [hx', hd']
    refine List.ext_getElem (by simp) fun i hi hi' => by simp
  have hq : (x'.grains.zip d'.etas).Perm (x.grains.zip d.etas) := by rw [hz, hz']; exact Equiv.Perm.ofFn_comp_perm s fun g => (G g, D g)
  refine ⟨_, _, rl_vmult_eq p x d, rl_vmult_eq p x' d', ⟨?_, ?_, ?_, ?_, ?_⟩, ?_⟩
  · rw [k1]
  · dsimp only
    rw [h1, h4, k1, k4, scalarM_perm _ _ (hq.map _), sum_perm hq, sum_perm hq, sum_perm hq]
  · dsimp only
    rw [h1, k1, k2, sum_perm hq]
  · rw [k3]
  · intro g
    dsimp only
    rw [sum_perm hp, sum_perm hq, h1, k1, hz, hz', getD_ofFn, getD_ofFn]
  · intro g e1 e2
    dsimp only
    rw [hz, getD_ofFn]
    simp [trow, e1, e2]

/-- The same result and a row of zeros. -/
def Ext (o o' : Out K V) : Prop :=
  o'.valC = o.valC ∧ o'.gradC = o.gradC ∧ o'.valMu = o.valMu ∧ o'.gradMu = o.gradMu ∧ o'.etas = o.etas ++ [(0, 0)]

theorem pairs_zero (l : List K) : pairs (l ++ [0]) = pairs l := by
  induction l with
  | nil => simp [pairs]
  | cons e l ih => rw [List.cons_append, pairs, pairs, ih]; simp

theorem scalarM_zero (k : Mobility.Coeff K) (c : K) (l : List K) : Mobility.scalarM k c (l ++ [0]) = Mobility.scalarM k c l := by
  unfold Mobility.scalarM
  rw [pairLoop_eq, pairLoop_eq, pairs_zero]
  simp

theorem ext_residual (p : Par K) (mode : Nat) (x x' : Point K V) (hx' : x'.grains = x.grains ++ [⟨0, 0, none, 0⟩]) (h1 : x'.c = x.c) (h2 : x'.mu = x.mu)
    (h3 : x'.gradC = x.gradC) (h4 : x'.gradMu = x.gradMu) (h5 : x'.bufC = x.bufC) :
    ∃ o o', SinteringKernel.residual p mode x = .ok o ∧ SinteringKernel.residual p mode x' = .ok o' ∧ Ext o o' := by
  refine ⟨_, _, rl_residual_eq p mode x, rl_residual_eq p mode x', ?_, ?_, ?_, ?_, ?_⟩
  · rw [h1, h5]
  · dsimp only
    rw [h1, h4, hx', List.map_append, List.map_append]
    simp only [List.map_cons, List.map_nil, scalarM_zero]
    simp
  · dsimp only
    rw [h1, h2, hx']
    simp
  · rw [h3]
  · dsimp only
    rw [h1, hx']
    have : ((x.grains ++ [(⟨0, 0, none, 0⟩ : Grain K V)]).map fun g => g.eta ^ 2).sum = (x.grains.map fun g => g.eta ^ 2).sum := by simp
    rw [this, List.map_append]
    simp [row]

theorem ext_vmult (p : Par K) (x x' : Point K V) (d d' : Incr K V) (hl : x.grains.length = d.etas.length) (hx' : x'.grains = x.grains ++ [⟨0, 0, none, 0⟩])
    (hd' : d'.etas = d.etas ++ [(0, 0)]) (h1 : x'.c = x.c) (h4 : x'.gradMu = x.gradMu) (k1 : d'.c = d.c) (k2 : d'.mu = d.mu) (k3 : d'.gradC = d.gradC)
    (k4 : d'.gradMu = d.gradMu) :
    ∃ o o', vmult p x d = .ok o ∧ vmult p x' d' = .ok o' ∧ Ext o o' := by
  have hz : x'.grains.zip d'.etas = x.grains.zip d.etas ++ [(⟨0, 0, none, 0⟩, 0, 0)] := by
    rw [hx', hd', List.zip_append hl]
    rfl
  refine ⟨_, _, rl_vmult_eq p x d, rl_vmult_eq p x' d', ?_, ?_, ?_, ?_, ?_⟩
  · rw [k1]
  · dsimp only
    rw [h1, h4, k1, k4, hz]
    simp only [List.map_append, List.map_cons, List.map_nil, scalarM_zero, List.sum_append, List.sum_cons, List.sum_nil]
    simp
  · dsimp only
    rw [h1, k1, k2, hz]
    simp
  · rw [k3]
  · dsimp only
    rw [h1, k1, hz, hx']
    have e1 : ((x.grains ++ [(⟨0, 0, none, 0⟩ : Grain K V)]).map fun g => g.eta ^ 2).sum = (x.grains.map fun g => g.eta ^ 2).sum := by simp
    have e2 : ((x.grains.zip d.etas ++ [((⟨0, 0, none, 0⟩, 0, 0) : Grain K V × K × V)]).map fun t => t.1.eta * t.2.1).sum = ((x.grains.zip d.etas).map fun t => t.1.eta * t.2.1).sum := by simp
    rw [e1, e2, List.map_append]
    simp [trow]

end kernel

section assembled
variable {n m d : Nat}

theorem value_same {q : VPt K n m d} (a b : Fin n → K)
    (h : ∀ i, Seen q.1 i → a i = b i) : value q.1 a = value q.1 b ∧ gradient q.1 a = gradient q.1 b := by
  constructor
  · unfold value
    refine sum_congr rfl fun i _ => ?_
    by_cases hi : q.1.N i = 0
    · rw [hi, zero_mul, zero_mul]
    · rw [h i (Or.inl hi)]
  · funext e
    unfold gradient
    refine sum_congr rfl fun i _ => ?_
    by_cases hi : q.1.G i e = 0
    · rw [hi, zero_mul, zero_mul]
    · rw [h i (Or.inr ⟨e, hi⟩)]

theorem value_void {q : VPt K n m d} {u : Fields K n m} {g : Fin m} {l : List (Fields K n m)} (h : NoGrain q l g) (hu : u ∈ l) :
    value q.1 (u.eta g) = 0 ∧ gradient q.1 (u.eta g) = 0 := by
  obtain ⟨h1, h2⟩ := value_same (q := q) (u.eta g) (fun _ => 0) (h u hu)
  rw [h1, h2]
  constructor
  · simp [value]
  · funext e; simp [gradient]

theorem point_grains (q : VPt K n m d) (u buf : Fields K n m) :
    (point q u buf).grains = List.ofFn fun g => ⟨value q.1 (u.eta g), gradient q.1 (u.eta g), q.2 g, value q.1 (buf.eta g)⟩ := rfl

theorem point_grains' {pts : List (VPt K n m d)} {s : VPt K n m d → Equiv.Perm (Fin m)} {u u' buf buf' : Fields K n m} (hu : Same pts s u u')
    (hb : Same pts s buf buf') {q : VPt K n m d} (hq : q ∈ pts) :
    (point (q.1, fun g => q.2 (s q g)) u' buf').grains =
      List.ofFn fun g => ⟨value q.1 (u.eta (s q g)), gradient q.1 (u.eta (s q g)), q.2 (s q g), value q.1 (buf.eta (s q g))⟩ := by
  unfold point
  dsimp only
  congr 1
  funext g
  rw [(value_same (q := q) _ _ fun i hi => hu.2.2 q hq i hi g).1, (value_same (q := q) _ _ fun i hi => hu.2.2 q hq i hi g).2,
    (value_same (q := q) _ _ fun i hi => hb.2.2 q hq i hi g).1]

theorem incr_etas' {pts : List (VPt K n m d)} {s : VPt K n m d → Equiv.Perm (Fin m)} {x x' : Fields K n m} (hx : Same pts s x x') {q : VPt K n m d} (hq : q ∈ pts) :
    (incr (q.1, fun g => q.2 (s q g)) x').etas = List.ofFn fun g => (value q.1 (x.eta (s q g)), gradient q.1 (x.eta (s q g))) := by
  unfold incr
  dsimp only
  congr 1
  funext g
  rw [(value_same (q := q) _ _ fun i hi => hx.2.2 q hq i hi g).1, (value_same (q := q) _ _ fun i hi => hx.2.2 q hq i hi g).2]

theorem value_zero (q : QPt K n d) : value q (fun _ => 0) = 0 ∧ gradient q (fun _ => 0) = 0 := by
  constructor
  · simp [value]
  · funext e; simp [gradient]

theorem ofFn_snoc {α : Type} (f : Fin (m + 1) → α) (g : Fin m → α) (a : α) (h : ∀ i, f i.castSucc = g i) (ha : f (Fin.last m) = a) :
    List.ofFn f = List.ofFn g ++ [a] := by
  rw [List.ofFn_succ', List.concat_eq_append, ha]
  congr 2
  funext i
  exact h i

theorem point_more (q : VPt K n m d) (u buf : Fields K n m) :
    (point (q.1, Fin.snoc (α := fun _ => Option (Fin d → K)) q.2 none) (more u) (more buf)).grains = (point q u buf).grains ++ [⟨0, 0, none, 0⟩] := by
  unfold point more
  dsimp only
  refine ofFn_snoc _ _ _ (fun i => ?_) ?_
  · simp only [Fin.snoc_castSucc]
  · simp only [Fin.snoc_last, (value_zero q.1).1, (value_zero q.1).2]

theorem incr_more (q : VPt K n m d) (x : Fields K n m) :
    (incr (q.1, Fin.snoc (α := fun _ => Option (Fin d → K)) q.2 none) (more x)).etas = (incr q x).etas ++ [(0, 0)] := by
  unfold incr more
  dsimp only
  refine ofFn_snoc _ _ _ (fun i => ?_) ?_
  · simp only [Fin.snoc_castSucc]
  · simp only [Fin.snoc_last, (value_zero q.1).1, (value_zero q.1).2]

theorem entry_unseen {q : QPt K n d} {i : Fin n} (h : ¬ Seen q i) (v : K) (g : Fin d → K) (a : Fin n → K) : entry q v g a i = a i := by
  have h1 : q.N i = 0 := by by_contra hn; exact h (Or.inl hn)
  have h2 : ∀ e, q.G i e = 0 := fun e => by by_contra hn; exact h (Or.inr ⟨e, hn⟩)
  simp [entry, h1, h2]

theorem residualAll_eq (p : Par K) (mode order : Nat) (weights : List K) (pts : List (VPt K n m d)) (u : Fields K n m) (olds : List (Fields K n m)) :
    residualAll p mode order weights pts u olds = (Res.index weights 0 >>= fun w =>
      (if mode = 2 then history order weights olds else .ok Fields.zero) >>= fun buf =>
        pts.foldlM (fun acc q => SinteringKernel.residual { p with weight := w } mode (point q u buf) >>= fun o => .ok (submit q.1 o acc)) Fields.zero) := by
  unfold residualAll
  by_cases h : mode = 2
  · simp only [if_pos h]
  · simp only [if_neg h]

/-- Two loops with related results at the points. -/
theorem loop_rel (s : VPt K n m d → Equiv.Perm (Fin m)) (k k' : VPt K n m d → Res (Out K (Fin d → K))) (pts : List (VPt K n m d))
    (l : List (Fields K n m))
    (hk : ∀ q ∈ pts, ∃ o o', k q = .ok o ∧ k' (q.1, fun g => q.2 (s q g)) = .ok o' ∧ Rel (s q) o o' ∧ ∀ g, NoGrain q l g → o.etas.getD g (0, 0) = (0, 0)) (acc acc' : Fields K n m)
    (hc : acc'.c = acc.c) (hm : acc'.mu = acc.mu) :
    ∃ r r', pts.foldlM (fun acc q => (k q).bind fun o => .ok (submit q.1 o acc)) acc = .ok r ∧
      (renumbered s pts).foldlM (fun acc q => (k' q).bind fun o => .ok (submit q.1 o acc)) acc' = .ok r' ∧ r'.c = r.c ∧ r'.mu = r.mu ∧
      ∀ g i h, acc'.eta g i = acc.eta h i → Was pts s l g h i → r'.eta g i = r.eta h i := by
  induction pts generalizing acc acc' with
  | nil => exact ⟨acc, acc', rfl, rfl, hc, hm, fun g i h e _ => e⟩
  | cons q t ih =>
    obtain ⟨o, o', h1, h2, ⟨e1, e2, e3, e4, e5⟩, hz⟩ := hk q (by simp)
    obtain ⟨r, r', k1, k2, k3, k4, k5⟩ := ih (fun q hq => hk q (by simp [hq])) (submit q.1 o acc) (submit q.1 o' acc')
      (by simp only [submit, e1, e2, hc]) (by simp only [submit, e3, e4, hm])
    refine ⟨r, r', ?_, ?_, k3, k4, ?_⟩
    · rw [List.foldlM_cons]
      simp only [h1]
      exact k1
    · rw [renumbered, List.map_cons, List.foldlM_cons]
      simp only [h2]
      exact k2
    · intro g i h e hs
      refine k5 g i h ?_ fun q hq => hs q (by simp [hq])
      by_cases hq : Seen q.1 i
      · rcases hs q (by simp) hq with this | ⟨v1, v2⟩
        · simp only [submit, e5, this, entry, e]
        · simp only [submit, e5, hz _ v1, hz _ v2, entry, e]
      · simp only [submit, entry_unseen hq, e]

theorem same_add {pts : List (VPt K n m d)} {s : VPt K n m d → Equiv.Perm (Fin m)} {u u' v v' : Fields K n m} (h : Same pts s u u') (k : Same pts s v v') :
    Same pts s (u.add v) (u'.add v') := by
  refine ⟨by simp only [Fields.add, h.1, k.1], by simp only [Fields.add, h.2.1, k.2.1], fun q hq i hi g => ?_⟩
  simp only [Fields.add, h.2.2 q hq i hi g, k.2.2 q hq i hi g]

theorem same_scale {pts : List (VPt K n m d)} {s : VPt K n m d → Equiv.Perm (Fin m)} {u u' : Fields K n m} (h : Same pts s u u') (w : K) :
    Same pts s (u.scale w) (u'.scale w) := by
  refine ⟨by simp only [Fields.scale, h.1], by simp only [Fields.scale, h.2.1], fun q hq i hi g => ?_⟩
  simp only [Fields.scale, h.2.2 q hq i hi g]

theorem forall2_get {α β : Type} {R : α → β → Prop} {l : List α} {l' : List β} (h : List.Forall₂ R l l') (i : Nat) :
    (l[i]? = none ∧ l'[i]? = none) ∨ ∃ a b, l[i]? = some a ∧ l'[i]? = some b ∧ R a b := by
  induction h generalizing i with
  | nil => simp
  | cons hab _ ih =>
    cases i with
    | zero => exact Or.inr ⟨_, _, rfl, rfl, hab⟩
    | succ i => simpa using ih i

theorem fold_rel {α β γ : Type} (R : α → β → Prop) (f : α → γ → Res α) (f' : β → γ → Res β) (l : List γ)
    (h : ∀ a b c a', R a b → f a c = .ok a' → ∃ b', f' b c = .ok b' ∧ R a' b') (a : α) (b : β) (hab : R a b) (r : α) (hr : l.foldlM f a = .ok r) :
    ∃ r', l.foldlM f' b = .ok r' ∧ R r r' := by
  induction l generalizing a b with
  | nil => obtain rfl : a = r := Res.ok.inj hr; exact ⟨b, rfl, hab⟩
  | cons c l ih =>
    rw [List.foldlM_cons] at hr ⊢
    cases hf : f a c with
    | ok a' =>
      obtain ⟨b', h1, h2⟩ := h a b c a' hab hf
      rw [hf] at hr
      rw [h1]
      exact ih a' b' h2 hr
    | exc e => rw [hf] at hr; exact nomatch hr
    | ub => rw [hf] at hr; exact nomatch hr

theorem history_same {pts : List (VPt K n m d)} {s : VPt K n m d → Equiv.Perm (Fin m)} {order : Nat} {weights : List K} {olds olds' : List (Fields K n m)}
    (h : List.Forall₂ (Same pts s) olds olds') {b : Fields K n m} (hb : history order weights olds = .ok b) :
    ∃ b', history order weights olds' = .ok b' ∧ Same pts s b b' := by
  unfold history at hb ⊢
  by_cases ho : order = 0
  · rw [if_pos ho] at hb; exact nomatch hb
  rw [if_neg ho] at hb ⊢
  refine fold_rel (Same pts s) _ _ _ ?_ Fields.zero Fields.zero ⟨rfl, rfl, fun _ _ _ _ _ => rfl⟩ b hb
  intro a a' i r ha hr
  unfold historyStep at hr ⊢
  cases hw : Res.index weights (i + 1) with
  | ok w =>
    rw [hw] at hr
    rcases forall2_get h i with ⟨e1, _⟩ | ⟨o, o', e1, e2, e3⟩
    · simp only [Res.index, e1] at hr
      exact nomatch hr
    · simp only [Res.index, e1] at hr
      simp only [Res.index, e2]
      obtain rfl := Res.ok.inj hr
      refine ⟨_, rfl, ?_⟩
      by_cases hi : i = 0
      · simp only [if_pos hi]; exact same_scale e3 w
      · simp only [if_neg hi]; exact same_add ha (same_scale e3 w)
  | exc e => rw [hw] at hr; exact nomatch hr
  | ub => rw [hw] at hr; exact nomatch hr

theorem history_void {q : VPt K n m d} {g : Fin m} {order : Nat} {weights : List K} {olds : List (Fields K n m)} (h : NoGrain q olds g) {b : Fields K n m}
    (hb : history order weights olds = .ok b) : NoGrain q [b] g := by
  unfold history at hb
  by_cases ho : order = 0
  · rw [if_pos ho] at hb; exact nomatch hb
  rw [if_neg ho] at hb
  have step : ∀ (a : Fields K n m) (_ : Unit) (i : Nat) r, NoGrain q [a] g → historyStep weights olds a i = .ok r → ∃ b' : Unit, (Res.ok () : Res Unit) = .ok b' ∧ NoGrain q [r] g := by
    intro a _ i r ha hr
    refine ⟨(), rfl, ?_⟩
    unfold historyStep at hr
    cases hw : Res.index weights (i + 1) with
    | ok w =>
      rw [hw] at hr
      cases e1 : olds[i]? with
      | none =>
        simp only [Res.index, e1] at hr
        exact nomatch hr
      | some o =>
        simp only [Res.index, e1] at hr
        obtain rfl := Res.ok.inj hr
        intro v hv j hj
        obtain rfl := List.mem_singleton.1 hv
        have h1 := h o (List.mem_of_getElem? e1) j hj
        have h2 := ha a (by simp) j hj
        by_cases hi : i = 0
        · simp only [if_pos hi, Fields.scale, h1, zero_mul]
        · simp only [if_neg hi, Fields.scale, Fields.add, h1, h2, zero_mul, add_zero]
    | exc e => rw [hw] at hr; exact nomatch hr
    | ub => rw [hw] at hr; exact nomatch hr
  obtain ⟨_, _, hv⟩ := fold_rel (fun b (_ : Unit) => NoGrain q [b] g) _ (fun _ _ => .ok ()) _ step Fields.zero () (fun v hv j _ => by
    obtain rfl := List.mem_singleton.1 hv
    rfl) b hb
  exact hv

theorem history_more {order : Nat} {weights : List K} {olds : List (Fields K n m)} {b : Fields K n m} (hb : history order weights olds = .ok b) :
    history order weights (olds.map more) = .ok (more b) := by
  unfold history at hb ⊢
  by_cases ho : order = 0
  · rw [if_pos ho] at hb; exact nomatch hb
  rw [if_neg ho] at hb ⊢
  have z : (more Fields.zero : Fields K n (m + 1)) = Fields.zero := by
    simp only [more, Fields.zero]
    congr 1
    funext g
    refine Fin.lastCases ?_ (fun g => ?_) g
    · exact Fin.snoc_last _ _
    · exact Fin.snoc_castSucc _ _ _
  have step : ∀ (a : Fields K n m) (a' : Fields K n (m + 1)) (i : Nat) r, a' = more a → historyStep weights olds a i = .ok r →
      ∃ r', historyStep weights (olds.map more) a' i = .ok r' ∧ r' = more r := by
    intro a a' i r ha hr
    subst ha
    unfold historyStep at hr ⊢
    cases hw : Res.index weights (i + 1) with
    | ok w =>
      rw [hw] at hr
      cases e1 : olds[i]? with
      | none =>
        simp only [Res.index, e1] at hr
        exact nomatch hr
      | some o =>
        simp only [Res.index, e1] at hr
        simp only [Res.index, List.getElem?_map, e1, Option.map_some]
        obtain rfl := Res.ok.inj hr
        refine ⟨_, rfl, ?_⟩
        have hs : ∀ u : Fields K n m, (more u).scale w = more (u.scale w) := fun u => by
          simp only [more, Fields.scale]
          congr 1
          funext g
          refine Fin.lastCases ?_ (fun g => ?_) g
          · rw [Fin.snoc_last, Fin.snoc_last]; funext i; exact zero_mul w
          · rw [Fin.snoc_castSucc, Fin.snoc_castSucc]
        have ha : ∀ u v : Fields K n m, (more u).add (more v) = more (u.add v) := fun u v => by
          simp only [more, Fields.add]
          congr 1
          funext g
          refine Fin.lastCases ?_ (fun g => ?_) g
          · rw [Fin.snoc_last, Fin.snoc_last, Fin.snoc_last]; funext i; rw [zero_add]
          · rw [Fin.snoc_castSucc, Fin.snoc_castSucc, Fin.snoc_castSucc]
        by_cases hi : i = 0
        · simp only [if_pos hi, hs]
        · simp only [if_neg hi, hs, ha]
    | exc e => rw [hw] at hr; exact nomatch hr
    | ub => rw [hw] at hr; exact nomatch hr
  obtain ⟨r', h1, h2⟩ := fold_rel (fun a a' => a' = more a) _ (historyStep weights (olds.map more)) _ step Fields.zero (more Fields.zero) rfl b hb
  rw [← h2, ← h1, z]

/-- Two loops, one with a further row of zeros. -/
theorem loop_ext (k : VPt K n m d → Res (Out K (Fin d → K))) (k' : VPt K n (m + 1) d → Res (Out K (Fin d → K))) (pts : List (VPt K n m d))
    (hk : ∀ q ∈ pts, ∃ o o', k q = .ok o ∧ k' (q.1, Fin.snoc (α := fun _ => Option (Fin d → K)) q.2 none) = .ok o' ∧ Ext o o' ∧ o.etas.length = m)
    (acc : Fields K n m) :
    ∃ r, pts.foldlM (fun acc q => (k q).bind fun o => .ok (submit q.1 o acc)) acc = .ok r ∧
      (morePts pts).foldlM (fun acc q => (k' q).bind fun o => .ok (submit q.1 o acc)) (more acc) = .ok (more r) := by
  induction pts generalizing acc with
  | nil => exact ⟨acc, rfl, rfl⟩
  | cons q l ih =>
    obtain ⟨o, o', h1, h2, ⟨e1, e2, e3, e4, e5⟩, hl⟩ := hk q (by simp)
    obtain ⟨r, k1, k2⟩ := ih (fun q hq => hk q (by simp [hq])) (submit q.1 o acc)
    refine ⟨r, ?_, ?_⟩
    · rw [List.foldlM_cons]
      simp only [h1]
      exact k1
    · rw [morePts, List.map_cons, List.foldlM_cons]
      simp only [h2]
      have : submit q.1 o' (more acc) = more (submit q.1 o acc) := by
        simp only [submit, more, e1, e2, e3, e4, e5]
        congr 1
        funext g
        refine Fin.lastCases ?_ (fun g => ?_) g
        · rw [Fin.snoc_last, Fin.snoc_last, Fin.val_last, List.getD_eq_getElem?_getD, List.getElem?_append_right (by omega)]
          funext i
          simp [hl, entry]
        · rw [Fin.snoc_castSucc, Fin.snoc_castSucc, Fin.val_castSucc, List.getD_eq_getElem?_getD, List.getElem?_append_left (by omega), ← List.getD_eq_getElem?_getD]
      show Res.bind (.ok (submit q.1 o' (more acc))) _ = _
      rw [this]
      exact k2

end assembled

end Verif.Relabel
