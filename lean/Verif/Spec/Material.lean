/-
Specification of the material data: physical quantities, systems of units, and when an evaluation of the equations uses
the material of its own time. Independent of the model.
-/
import Mathlib.Analysis.Complex.Exponential
import Mathlib.Algebra.Order.Field.Basic

namespace Verif.Material.Spec

noncomputable section

/-- a system of units: one unit of length, time and energy in physical units -/
structure Units where
  length : ℝ
  time : ℝ
  energy : ℝ

/-- proper units are positive -/
def Units.Proper (u : Units) : Prop := 0 < u.length ∧ 0 < u.time ∧ 0 < u.energy

/-- `x` is the measure of the physical quantity `q` with dimension length^a time^b energy^c -/
def Measures (u : Units) (a b c : ℤ) (q x : ℝ) : Prop := q = x * (u.length ^ a * u.time ^ b * u.energy ^ c)

/-- law of Arrhenius: `k` is the constant, `T` the temperature -/
def arrhenius (D0 Q k T : ℝ) : ℝ := D0 * Real.exp (-(Q / (k * T)))

/-- mobility of diffusion by the relation of Einstein: `omega` is the atomic volume -/
def mobility (omega D0 Q k T : ℝ) : ℝ := arrhenius D0 Q k T * omega / (k * T)

/-- Allen-Cahn mobility of a grain boundary of mobility `D` and width `w` -/
def boundaryMobility (D0 Q k T w : ℝ) : ℝ := 4 / 3 * arrhenius D0 Q k T / w

end

/-- material `m` is the one of time `t` if the material of every time is given by `provider` -/
def OfTime {K M : Type} (provider : K → M) (t : K) (m : M) : Prop := m = provider t

end Verif.Material.Spec
