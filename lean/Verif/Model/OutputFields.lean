import Verif.Model.Res
/-!
# Fields provided by the operators for the output

Models `get_vector_output_entries_mask`
(applications/sintering/include/pf-applications/sintering/operator_base.h:936-961) and
`do_add_data_vectors_kernel` of the sintering operators (operator_sintering_base.h:71-393,
operator_sintering_generic.h:679-796, operator_sintering_coupled_monolithic.h:173-326), of grain growth
(operator_grain_growth.h:333-482), of the grand potential operator
(operator_grand_potential_greenquist.h:665-781) and of the operator of the fluxes (operator_postproc.h:118-139).

A kernel allocates as many vectors as entries are counted, computes at every quadrature point a list `temp` of
values and finally adds the vectors with names from a list. Values are represented by what they are (`Quantity`),
columns by the list of the values at the quadrature points of the rank; `none` is an entry that has not been
written. Writing or reading behind the end of a vector is undefined. Not modelled: the projection of the values
at the quadrature points to the nodes and `constraints.distribute`, which treat all columns alike.
-/
namespace Verif.OutputFields

/-- quantities at a quadrature point -/
inductive Quantity where
  /-- Σ ηᵢ² -/
  | bnds
  /-- Σ_{j<i} ηᵢ ηⱼ -/
  | gb
  | d2fDc2
  | d2fDcDeta (i : Nat)
  | d2fDeta2 (i : Nat)
  | d2fDetaDeta (i j : Nat)
  /-- first component of the mobility applied to the first unit vector -/
  | mobility
  | dMDc
  | dMDgradC
  | dMDeta (i : Nat)
  | kappaC
  | kappaP
  | mobilityL
  | energy
  | dfDc
  | dfDeta (i : Nat)
  /-- component `d` of a flux: 0 volume, 1 vapour, 2 surface, 3 grain boundary -/
  | flux (k d : Nat)
  /-- component `d` of the advection velocity of an order parameter -/
  | velocity (ig d : Nat)
  | zero
  /-- normal strain -/
  | eps (i : Nat)
  /-- shear strain, `i < j` -/
  | gamma (i j : Nat)
  deriving DecidableEq

/-- assignment of an entry of an array -/
def upd {α : Type} (f : Nat → α) (c : Nat) (a : α) : Nat → α := fun x => if x = c then a else f x

/-- `get_vector_output_entries_mask`: entries are (name, index in the enumeration, number of vectors) -/
def entriesMask (possible : List (String × Nat × Nat)) (fields : List String) : (Nat → Bool) × Nat :=
  possible.foldl
    (fun s e => if fields.contains e.1 then (upd s.1 e.2.1 true, s.2 + e.2.2) else s) ((fun _ => false), 0)

/-- `counter` and `temp` -/
structure Temp where
  counter : Nat
  temp : List (Option Quantity)

/-- `temp[i] = v` -/
def setAt (t : List (Option Quantity)) (i : Nat) (v : Quantity) : Res (List (Option Quantity)) :=
  if i < t.length then .ok (t.set i (some v)) else .ub

/-- `temp[counter++] = v` -/
def push (s : Temp) (v : Quantity) : Res Temp := do
  let t ← setAt s.temp s.counter v
  pure ⟨s.counter + 1, t⟩

/-- a block of the kernel that is executed if the bit of the mask is set -/
def block (m : Bool) (vs : List Quantity) (s : Temp) : Res Temp :=
  if m then vs.foldlM push s else .ok s

/-- pairs `ig < jg` in the order of the loops -/
def pairs {α : Type} (n : Nat) (f : Nat → Nat → α) : List α :=
  (List.range n).flatMap fun i => ((List.range n).filter fun j => i < j).map (f i)

/-- run the kernel at `nq` quadrature points: `temp` is used again at the next point; result are the rows -/
def runPoints (kernel : List (Option Quantity) → Res (List (Option Quantity))) :
    Nat → List (Option Quantity) → Res (List (List (Option Quantity)))
  | 0, _ => .ok []
  | n + 1, t => do
    let t ← kernel t
    let r ← runPoints kernel n t
    pure (t :: r)

/-- column `c` of the rows; `temp` has as many entries as there are vectors -/
def column (rows : List (List (Option Quantity))) (c : Nat) : List (Option Quantity) :=
  rows.map fun r => (r[c]?).join

/-- result of a kernel: names and columns -/
abbrev Fields := List (String × List (Option Quantity))

/-- the last loop: `names[c]` for every vector -/
def addAll (n : Nat) (names : List String) (col : Nat → List (Option Quantity)) : Res Fields :=
  (List.range n).mapM fun c => do
    let s ← Res.index names c
    pure (s, col c)

/-- common frame of the kernels -/
def frame (possible : List (String × Nat × Nat)) (fields : List String)
    (kernel : (Nat → Bool) → List (Option Quantity) → Res (List (Option Quantity)))
    (names : (Nat → Bool) → List String) (nq : Nat) : Res Fields :=
  let m := entriesMask possible fields
  if m.2 = 0 then .ok []
  else do
    let rows ← runPoints (kernel m.1) nq (List.replicate m.2 none)
    addAll m.2 (names m.1) (column rows)

/-! ## Sintering -/

/-- operator_sintering_base.h:93-104 -/
def sinteringEntries (n dim : Nat) : List (String × Nat × Nat) :=
  [("bnds", 0, 1), ("gb", 1, 1), ("d2f", 2, 1 + 2 * n + n * (n - 1) / 2), ("M", 3, 1), ("dM", 4, 2 + n),
    ("kappa", 5, 2), ("L", 6, 1), ("energy", 7, 2), ("flux", 8, 4 * dim)]

/-- values of the second derivatives (operator_sintering_base.h:190-212) -/
def d2fValues (n : Nat) : List Quantity :=
  .d2fDc2 :: ((List.range n).map .d2fDcDeta ++ (List.range n).map .d2fDeta2 ++ pairs n .d2fDetaDeta)

/-- values of the derivatives of the mobility (operator_sintering_base.h:227-243) -/
def dMValues (n : Nat) : List Quantity := .dMDc :: .dMDgradC :: (List.range n).map .dMDeta

/-- the four fluxes in direction `i` (operator_sintering_base.h:283-289) -/
def fluxStep (dim counter : Nat) (t : List (Option Quantity)) (i : Nat) : Res (List (Option Quantity)) := do
  let t ← setAt t (counter + 0 * dim + i) (.flux 0 i)
  let t ← setAt t (counter + 1 * dim + i) (.flux 1 i)
  let t ← setAt t (counter + 2 * dim + i) (.flux 2 i)
  setAt t (counter + 3 * dim + i) (.flux 3 i)

/-- operator_sintering_base.h:275-292 -/
def fluxBlock (m : Bool) (dim : Nat) (s : Temp) : Res Temp :=
  if m then do
    let t ← (List.range dim).foldlM (fluxStep dim s.counter) s.temp
    pure ⟨s.counter + 4 * dim, t⟩
  else .ok s

/-- mobility and its derivatives (operator_sintering_base.h:214-252), refused if the mobility is a tensor -/
def mobilityBlock (tensorial : Bool) (m : Nat → Bool) (n : Nat) (s : Temp) : Res Temp :=
  if tensorial then
    if m 3 || m 4 then .exc .assertThrow else .ok s
  else do
    let s ← block (m 3) [.mobility] s
    block (m 4) (dMValues n) s

/-- the kernel at a quadrature point (operator_sintering_base.h:148-296) -/
def sinteringPoint (tensorial : Bool) (n dim : Nat) (m : Nat → Bool) (t : List (Option Quantity)) :
    Res (List (Option Quantity)) := do
  let s ← block (m 0) [.bnds] ⟨0, t⟩
  let s ← block (m 1) [.gb] s
  let s ← block (m 2) (d2fValues n) s
  let s ← mobilityBlock tensorial m n s
  let s ← block (m 5) [.kappaC, .kappaP] s
  let s ← block (m 6) [.mobilityL] s
  let s ← block (m 7) [.energy, .dfDc] s
  let s ← fluxBlock (m 8) dim s
  pure s.temp

/-- part of the names -/
def part (m : Bool) (l : List String) : List String := if m then l else []

/-- operator_sintering_base.h:319-386 -/
def sinteringNames (n dim : Nat) (m : Nat → Bool) : List String :=
  part (m 0) ["bnds"] ++ part (m 1) ["gb"] ++
  part (m 2) ("d2f_dc2" :: ((List.range n).map (fun i => "d2f_dcdeta" ++ toString i) ++
    (List.range n).map (fun i => "d2f_deta" ++ toString i ++ "2") ++
    pairs n fun i j => "d2f_deta" ++ toString i ++ "deta" ++ toString j)) ++
  part (m 3) ["M"] ++
  part (m 4) ("nrm_dM_dc_x_mu_grad" :: "nrm_dM_dgrad_c" ::
    (List.range n).map fun i => "nrm_dM_deta" ++ toString i ++ "_x_mu_grad") ++
  part (m 5) ["kappa_c", "kappa_p"] ++ part (m 6) ["L"] ++ part (m 7) ["f", "df_dc"] ++
  part (m 8) (["flux_vol", "flux_vap", "flux_surf", "flux_gb"].flatMap fun s => List.replicate dim s)

/-- `SinteringOperatorBase::do_add_data_vectors_kernel` -/
def sinteringFields (tensorial : Bool) (n dim nq : Nat) (fields : List String) : Res Fields :=
  frame (sinteringEntries n dim) fields (sinteringPoint tensorial n dim) (sinteringNames n dim) nq

/-! ## Sintering with advection -/

/-- one order parameter (operator_sintering_generic.h:741-752) -/
def velocityStep (dim : Nat) (has : Nat → Bool) (t : List (Option Quantity)) (ig : Nat) :
    Res (List (Option Quantity)) :=
  if has ig then (List.range dim).foldlM (fun t d => setAt t (ig * dim + d) (.velocity ig d)) t else .ok t

/-- operator_sintering_generic.h:732-756; `has` is `has_velocity` in the cell -/
def velocityPoint (enabled : Bool) (n dim : Nat) (has : Nat → Bool) (m : Nat → Bool)
    (t : List (Option Quantity)) : Res (List (Option Quantity)) :=
  let t := t.map fun _ => some Quantity.zero
  if m 0 && enabled then (List.range n).foldlM (velocityStep dim has) t else .ok t

/-- operator_sintering_generic.h:780-790 -/
def velocityNames (n dim : Nat) (m : Nat → Bool) : List String :=
  part (m 0) ((List.range n).flatMap fun ig => List.replicate dim ("vel" ++ toString ig))

/-- `SinteringOperatorGeneric::do_add_data_vectors_kernel` behind the call of the parent -/
def velocityFields (enabled : Bool) (n dim nq : Nat) (has : Nat → Bool) (fields : List String) : Res Fields :=
  frame [("vel", 0, n * dim)] fields (velocityPoint enabled n dim has) (velocityNames n dim) nq

/-- `SinteringOperatorGeneric::do_add_data_vectors_kernel` -/
def genericFields (tensorial enabled : Bool) (n dim nq : Nat) (has : Nat → Bool) (fields : List String) :
    Res Fields := do
  let a ← sinteringFields tensorial n dim nq fields
  let b ← velocityFields enabled n dim nq has fields
  pure (a ++ b)

/-! ## Sintering coupled with elasticity -/

/-- columns of this kernel -/
inductive Col where
  /-- a block of the solution divided by the step size (or zero) -/
  | nodal (b : Nat)
  | points (l : List (Option Quantity))
  deriving DecidableEq

/-- `voigt_size` -/
def voigtSize (dim : Nat) : Nat := dim * (dim + 1) / 2

/-- `apply_l` (structural/tools.h:36-71): what the entries are -/
def voigtValues (dim : Nat) : List Quantity :=
  if dim = 2 then [.eps 0, .eps 1, .gamma 0 1]
  else if dim = 3 then [.eps 0, .eps 1, .eps 2, .gamma 0 1, .gamma 1 2, .gamma 0 2] else []

/-- `voigt_indices` (structural/tools.h:14-34) -/
def voigtIndices (dim : Nat) : List String :=
  if dim = 2 then ["eps_xx", "eps_yy", "tau_xy"]
  else if dim = 3 then ["eps_xx", "eps_yy", "eps_zz", "tau_xy", "tau_yz", "tau_xz"] else []

/-- `data_vectors[i] = c` -/
def setCol (l : List (Option Col)) (i : Nat) (c : Col) : Res (List (Option Col)) :=
  if i < l.length then .ok (l.set i (some c)) else .ub

/-- (operator_sintering_coupled_monolithic.h:267-281) -/
def strainPoint (dim : Nat) (m : Nat → Bool) (t : List (Option Quantity)) : Res (List (Option Quantity)) := do
  let s ← block (m 1) (voigtValues dim) ⟨0, t⟩
  pure s.temp

/-- `data_vectors[n_nd_entries + c]` for the quantities at quadrature points
(operator_sintering_coupled_monolithic.h:287-296) -/
def strainCols (dim nd nqp nq : Nat) (m : Nat → Bool) (l : List (Option Col)) : Res (List (Option Col)) :=
  if nqp = 0 then .ok l
  else do
    let rows ← runPoints (strainPoint dim m) nq (List.replicate nqp none)
    (List.range nqp).foldlM (fun l c => setCol l (nd + c) (.points (column rows c))) l

/-- velocities (operator_sintering_coupled_monolithic.h:214-224); `first` is the first block of the
displacements -/
def nodalCols (dim first : Nat) (m : Nat → Bool) (l : List (Option Col)) : Res (List (Option Col)) :=
  if m 0 then (List.range dim).foldlM (fun l d => setCol l d (.nodal (first + d))) l else .ok l

/-- operator_sintering_coupled_monolithic.h:306-321 -/
def coupledNames (dim : Nat) (m : Nat → Bool) : List String :=
  part (m 0) (List.replicate dim "vel") ++ part (m 1) ((voigtIndices dim).map fun s => "lin_" ++ s)

/-- `SinteringOperatorCoupledMonolithic::do_add_data_vectors_kernel` behind the call of the parent -/
def coupledFields (dim first nq : Nat) (fields : List String) : Res (List (String × Option Col)) :=
  let m := entriesMask [("vel", 0, dim), ("strain_lin", 1, voigtSize dim)] fields
  if m.2 = 0 then .ok []
  else do
    let l ← nodalCols dim first m.1 (List.replicate m.2 none)
    let nd := if m.1 0 then dim else 0
    let l ← strainCols dim nd (m.2 - nd) nq m.1 l
    (List.range m.2).mapM fun c => do
      let s ← Res.index (coupledNames dim m.1) c
      let x ← Res.index l c
      pure (s, x)

/-! ## Grain growth -/

/-- operator_grain_growth.h:351-357; the name `df` has the index of the second derivatives (4) -/
def growthEntries (n : Nat) : List (String × Nat × Nat) :=
  [("bnds", 0, 1), ("gb", 1, 1), ("energy", 2, 1), ("df", 4, n), ("d2f", 4, n * (n - 1) / 2)]

/-- operator_grain_growth.h:397-433 -/
def growthPoint (n : Nat) (m : Nat → Bool) (t : List (Option Quantity)) : Res (List (Option Quantity)) := do
  let s ← block (m 0) [.bnds] ⟨0, t⟩
  let s ← block (m 1) [.gb] s
  let s ← block (m 2) [.energy] s
  let s ← block (m 3) ((List.range n).map .dfDeta) s
  let s ← block (m 4) (pairs n .d2fDetaDeta) s
  pure s.temp

/-- operator_grain_growth.h:455-476 -/
def growthNames (n : Nat) (m : Nat → Bool) : List String :=
  part (m 0) ["bnds"] ++ part (m 1) ["gb"] ++ part (m 2) ["f"] ++
  part (m 4) ((List.range n).map fun i => "df_deta" ++ toString i) ++
  part (m 4) ((List.range n).flatMap fun i => ("d2f_deta" ++ toString i ++ "2") ::
    ((List.range n).filter fun j => i < j).map fun j => "d2f_deta" ++ toString i ++ "deta" ++ toString j)

/-- `GrainGrowthOperator::do_add_data_vectors_kernel` -/
def growthFields (n nq : Nat) (fields : List String) : Res Fields :=
  frame (growthEntries n) fields (growthPoint n) (growthNames n) nq

/-! ## Grand potential -/

/-- operator_grand_potential_greenquist.h:681-685: an array of five with two entries given, the others are
value-initialised -/
def greenquistEntries : List (String × Nat × Nat) :=
  [("bnds", 0, 1), ("gb", 1, 1), ("", 0, 0), ("", 0, 0), ("", 0, 0)]

/-- operator_grand_potential_greenquist.h:729-747 -/
def greenquistPoint (m : Nat → Bool) (t : List (Option Quantity)) : Res (List (Option Quantity)) := do
  let s ← block (m 0) [.bnds] ⟨0, t⟩
  let s ← block (m 1) [.gb] s
  pure s.temp

/-- operator_grand_potential_greenquist.h:768-773 -/
def greenquistNames (m : Nat → Bool) : List String := part (m 0) ["bnds"] ++ part (m 1) ["gb"]

/-- `GreenquistGrandPotentialOperator::do_add_data_vectors_kernel` -/
def greenquistFields (nq : Nat) (fields : List String) : Res Fields :=
  frame greenquistEntries fields greenquistPoint greenquistNames nq

/-! ## Values -/

section
variable {K : Type} [Zero K] [Add K] [Mul K]

/-- the loop of `gb` (operator_sintering_base.h:177-182) -/
def gbValue (n : Nat) (eta : Nat → K) : K :=
  (List.range n).foldl (fun s i => (List.range i).foldl (fun s j => s + eta i * eta j) s) 0

end
end Verif.OutputFields
