/-
C59: contact planes of overlapping particles.
C60: order parameters of a particle cloud.
C61: local coordinate systems of contacts.
C62: values in the neck.
-/
import Verif.Props.InitialValues
import Mathlib.Algebra.Order.AbsoluteValue.Basic
import Mathlib.Algebra.Module.Prod
import Mathlib.Tactic.NormNum
import Mathlib.Tactic.Abel
import Mathlib.Analysis.Real.Sqrt
import Mathlib.Tactic.LinearCombination

namespace Verif.Props

open Verif.Initial Verif.Cloud

section
set_option linter.unusedSectionVars false
variable {K P : Type} [Field K] [LinearOrder K] [IsStrictOrderedRing K] [AddCommGroup P] [Module K P]

/-- Square roots. -/
def SqrtOk (sqrt : K → K) : Prop := ∀ x, 0 ≤ x → 0 ≤ sqrt x ∧ sqrt x * sqrt x = x

theorem SqrtOk.abs {sqrt : K → K} (h : SqrtOk sqrt) (x : K) : sqrt (x * x) = |x| := by
  obtain ⟨h1, h2⟩ := h (x * x) (mul_self_nonneg x)
  have : sqrt (x * x) * sqrt (x * x) = |x| * |x| := by rw [h2, abs_mul_abs_self]
  exact (mul_self_inj h1 (abs_nonneg x)).1 this

/-! ### C59 -/

/-- Specification: signed distance of the plane of the intersection circle of two spheres from the first centre. -/
def planeDistance (r1 r2 d : K) : K := (d * d + r1 * r1 - r2 * r2) / (2 * d)

private theorem heron (r1 r2 d : K) (hd : d ≠ 0) :
    2 / d * (2 / d) * ((r1 + r2 + d) / 2 * ((r1 + r2 + d) / 2 - r1) * ((r1 + r2 + d) / 2 - r2) * ((r1 + r2 + d) / 2 - d)) =
      r1 * r1 - planeDistance r1 r2 d * planeDistance r1 r2 d := by
  unfold planeDistance
  field_simp
  ring

/-- C59: if the spheres intersect, the code takes the absolute value of the distance of the plane. -/
theorem C59_distance (sqrt : K → K) (hs : SqrtOk sqrt) (r1 r2 d : K) (h1 : 0 ≤ r1) (h2 : 0 ≤ r2) (hd : 0 < d)
    (hle : d ≤ r1 + r2) (hge : |r1 - r2| ≤ d) : neckDistance sqrt r1 r2 d = some |planeDistance r1 r2 d| := by
  obtain ⟨hge1, hge2⟩ := abs_le.1 hge
  set q := (r1 + r2 + d) / 2 * ((r1 + r2 + d) / 2 - r1) * ((r1 + r2 + d) / 2 - r2) * ((r1 + r2 + d) / 2 - d) with hq
  have hq0 : 0 ≤ q := mul_nonneg (mul_nonneg (mul_nonneg (by linarith) (by linarith)) (by linarith)) (by linarith)
  have hr : neckRadius sqrt r1 r2 d = some (2 / d * sqrt q) := by
    unfold neckRadius
    dsimp only
    rw [← hq, if_neg]
    rintro (h | h) <;> linarith
  have hsq : r1 * r1 - 2 / d * sqrt q * (2 / d * sqrt q) = planeDistance r1 r2 d * planeDistance r1 r2 d := by
    have e := heron r1 r2 d hd.ne'
    rw [← hq] at e
    have e2 := (hs q hq0).2
    linear_combination (-(2 / d * (2 / d))) * e2 - e
  unfold neckDistance
  rw [hr]
  dsimp only
  rw [hsq, if_neg (not_lt.2 (mul_self_nonneg _)), hs.abs]

/-- C59, partial: the planes computed from both particles coincide if both centres are on their sides of the plane.
Missing: a centre beyond the plane, see `C59_violated`. -/
theorem C59_same_plane_partial (sqrt : K → K) (hs : SqrtOk sqrt) (r1 r2 d : K) (h1 : 0 ≤ r1) (h2 : 0 ≤ r2) (hd : 0 < d)
    (hle : d ≤ r1 + r2) (hge : |r1 - r2| ≤ d) (ha : r2 * r2 ≤ d * d + r1 * r1) (hb : r1 * r1 ≤ d * d + r2 * r2) :
    ∃ m1 m2, neckDistance sqrt r1 r2 d = some m1 ∧ neckDistance sqrt r2 r1 d = some m2 ∧ m1 + m2 = d := by
  refine ⟨_, _, C59_distance sqrt hs r1 r2 d h1 h2 hd hle hge,
    C59_distance sqrt hs r2 r1 d h2 h1 hd (by linarith) (by rwa [abs_sub_comm]), ?_⟩
  rw [abs_of_nonneg (div_nonneg (by linarith) (by linarith)), abs_of_nonneg (div_nonneg (by linarith) (by linarith))]
  unfold planeDistance
  field_simp
  ring

/-- C59, violated: if the centre of a small particle is beyond the plane (inside the big one), the two planes differ by
twice the distance of the centre from the plane. -/
theorem C59_violated (sqrt : K → K) (hs : SqrtOk sqrt) (r1 r2 d : K) (h1 : 0 ≤ r1) (h2 : 0 ≤ r2) (hd : 0 < d)
    (hle : d ≤ r1 + r2) (hge : |r1 - r2| ≤ d) (ha : d * d + r1 * r1 < r2 * r2) :
    ∃ m1 m2, neckDistance sqrt r1 r2 d = some m1 ∧ neckDistance sqrt r2 r1 d = some m2 ∧
      m1 + m2 = d + 2 * |planeDistance r1 r2 d| ∧ d < m1 + m2 := by
  have hneg : planeDistance r1 r2 d < 0 := div_neg_of_neg_of_pos (by linarith) (by linarith)
  have hpos : 0 ≤ planeDistance r2 r1 d := div_nonneg (by nlinarith) (by linarith)
  have hsum : planeDistance r1 r2 d + planeDistance r2 r1 d = d := by
    unfold planeDistance
    field_simp
    ring
  refine ⟨_, _, C59_distance sqrt hs r1 r2 d h1 h2 hd hle hge,
    C59_distance sqrt hs r2 r1 d h2 h1 hd (by linarith) (by rwa [abs_sub_comm]), ?_, ?_⟩
  · rw [abs_of_nonneg hpos, abs_of_neg hneg]; linarith
  · rw [abs_of_nonneg hpos, abs_of_neg hneg]; linarith

/-- C59: a particle inside another one gives no plane (NaN). -/
theorem C59_nan (sqrt : K → K) (r1 r2 d : K) (h1 : 0 < r1) (h2 : 0 < r2) (hd : 0 < d) (hlt : d < |r1 - r2|) :
    neckDistance sqrt r1 r2 d = none := by
  have hq : (r1 + r2 + d) / 2 * ((r1 + r2 + d) / 2 - r1) * ((r1 + r2 + d) / 2 - r2) * ((r1 + r2 + d) / 2 - d) < 0 := by
    rcases lt_abs.1 hlt with h | h
    · have e1 : 0 < (r1 + r2 + d) / 2 := by linarith
      have e2 : (r1 + r2 + d) / 2 - r1 < 0 := by linarith
      have e3 : 0 < (r1 + r2 + d) / 2 - r2 := by linarith
      have e4 : 0 < (r1 + r2 + d) / 2 - d := by linarith
      exact mul_neg_of_neg_of_pos (mul_neg_of_neg_of_pos (mul_neg_of_pos_of_neg e1 e2) e3) e4
    · have e1 : 0 < (r1 + r2 + d) / 2 := by linarith
      have e2 : 0 < (r1 + r2 + d) / 2 - r1 := by linarith
      have e3 : (r1 + r2 + d) / 2 - r2 < 0 := by linarith
      have e4 : 0 < (r1 + r2 + d) / 2 - d := by linarith
      exact mul_neg_of_neg_of_pos (mul_neg_of_pos_of_neg (mul_pos e1 e2) e3) e4
  unfold neckDistance neckRadius
  dsimp only
  rw [if_pos (.inr hq)]

/-- The external functions are those of a Euclidean space. -/
structure EuclidOk (E : CloudExt K P) : Prop where
  add_left : ∀ x y z, E.dot (x + y) z = E.dot x z + E.dot y z
  smul_left : ∀ (a : K) x y, E.dot (a • x) y = a * E.dot x y
  symm : ∀ x y, E.dot x y = E.dot y x
  nonneg : ∀ x, 0 ≤ E.dot x x
  sqrt : SqrtOk E.sqrt
  dist : ∀ x y, E.dist x y = E.sqrt (E.dot (x - y) (x - y))
  /-- the first row of the rotation matrix is the direction (see `C61_row2`, `C61_row3`) -/
  row : ∀ o e r, E.row o e = .ok (some r) → r = e

namespace EuclidOk
variable {E : CloudExt K P} (hE : EuclidOk E)
include hE

theorem neg_left (x y : P) : E.dot (-x) y = - E.dot x y := by
  rw [← neg_one_smul K x, hE.smul_left]; ring

theorem sub_left (x y z : P) : E.dot (x - y) z = E.dot x z - E.dot y z := by
  rw [sub_eq_add_neg, hE.add_left, hE.neg_left]; ring

theorem sub_right (x y z : P) : E.dot x (y - z) = E.dot x y - E.dot x z := by
  rw [hE.symm, hE.sub_left, hE.symm y, hE.symm z]

theorem add_right (x y z : P) : E.dot x (y + z) = E.dot x y + E.dot x z := by
  rw [hE.symm, hE.add_left, hE.symm y, hE.symm z]

theorem smul_right (a : K) (x y : P) : E.dot x (a • y) = a * E.dot x y := by
  rw [hE.symm, hE.smul_left, hE.symm]

theorem dist_mul_self (x y : P) : E.dist x y * E.dist x y = E.dot (x - y) (x - y) := by
  rw [hE.dist]; exact (hE.sqrt _ (hE.nonneg _)).2

theorem dist_nonneg (x y : P) : 0 ≤ E.dist x y := by
  rw [hE.dist]; exact (hE.sqrt _ (hE.nonneg _)).1

theorem dist_comm (x y : P) : E.dist x y = E.dist y x := by
  rw [hE.dist, hE.dist, ← neg_sub, hE.neg_left, hE.symm, hE.neg_left, neg_neg]
end EuclidOk

private theorem makeContact_frame {E : CloudExt K P} (hE : EuclidOk E) (p1 p2 : Part K P) (c : Contact P) (row ctr : P)
    (hc : makeContact E p1 p2 = .ok c) (hf : c.frame = some (row, ctr)) :
    0 < E.dist p2.center p1.center ∧ ∃ dm, neckDistance E.sqrt p1.radius p2.radius (E.dist p2.center p1.center) = some dm ∧
      row = (1 / E.dist p2.center p1.center) • (p2.center - p1.center) ∧ ctr = p1.center + dm • row := by
  unfold makeContact at hc
  dsimp only at hc
  split at hc
  · cases hc; simp at hf
  · rename_i hd
    refine ⟨lt_of_le_of_ne (hE.dist_nonneg _ _) (Ne.symm hd), ?_⟩
    rw [Res.bind_eq_ok] at hc
    obtain ⟨r, hr, hc⟩ := hc
    cases r with
    | none => cases hc; simp at hf
    | some r =>
      cases hn : neckDistance E.sqrt p1.radius p2.radius (E.dist p2.center p1.center) with
      | none => rw [hn] at hc; cases hc; simp at hf
      | some dm =>
        rw [hn] at hc
        cases hc
        simp only [Option.some.injEq, Prod.mk.injEq] at hf
        obtain ⟨rfl, rfl⟩ := hf
        have := hE.row _ _ _ hr
        exact ⟨dm, rfl, this, by rw [this]⟩

/-- C59, partial: the contact plane is the plane of the intersection circle (the points with equal power to both
spheres), if the centre of the first particle is on its side of the plane. -/
theorem C59_plane_partial {E : CloudExt K P} (hE : EuclidOk E) (p1 p2 : Part K P) (h1 : 0 ≤ p1.radius) (h2 : 0 ≤ p2.radius)
    (hle : E.dist p2.center p1.center ≤ p1.radius + p2.radius) (hge : |p1.radius - p2.radius| ≤ E.dist p2.center p1.center)
    (ha : p2.radius * p2.radius ≤ E.dist p2.center p1.center * E.dist p2.center p1.center + p1.radius * p1.radius)
    (c : Contact P) (row ctr : P) (hc : makeContact E p1 p2 = .ok c) (hf : c.frame = some (row, ctr)) (x : P) :
    E.dot row (x - ctr) = 0 ↔
      E.dot (x - p1.center) (x - p1.center) - p1.radius * p1.radius =
        E.dot (x - p2.center) (x - p2.center) - p2.radius * p2.radius := by
  obtain ⟨hd, dm, hdm, hrow, hctr⟩ := makeContact_frame hE p1 p2 c row ctr hc hf
  rw [C59_distance E.sqrt hE.sqrt _ _ _ h1 h2 hd hle hge, Option.some.injEq, abs_of_nonneg
    (div_nonneg (by linarith) (by linarith))] at hdm
  set d := E.dist p2.center p1.center with hdd
  have hDD : E.dot (p2.center - p1.center) (p2.center - p1.center) = d * d := (hE.dist_mul_self _ _).symm
  have hdrow : d • row = p2.center - p1.center := by
    rw [hrow, smul_smul, mul_one_div, div_self hd.ne', one_smul]
  have hrr : E.dot row row = 1 := by
    rw [hrow, hE.smul_left, hE.smul_right, hDD]; field_simp
  have hx : x - p2.center = (x - p1.center) - d • row := by rw [hdrow]; abel
  have hl : E.dot row (x - ctr) = E.dot row (x - p1.center) - dm := by
    rw [hctr, show x - (p1.center + dm • row) = (x - p1.center) - dm • row by abel, hE.sub_right, hE.smul_right, hrr, mul_one]
  have hr : E.dot (x - p2.center) (x - p2.center) = E.dot (x - p1.center) (x - p1.center) -
      2 * d * E.dot row (x - p1.center) + d * d := by
    rw [hx]
    generalize x - p1.center = y
    rw [hE.sub_left, hE.sub_right, hE.smul_left, hE.smul_right, hE.sub_right, hE.smul_right, hrr, hE.symm y row]
    ring
  rw [hl, hr, ← hdm, planeDistance]
  constructor
  · intro h
    have : E.dot row (x - p1.center) = (d * d + p1.radius * p1.radius - p2.radius * p2.radius) / (2 * d) := by linarith
    rw [this]
    field_simp
    ring
  · intro h
    rw [sub_eq_zero, eq_div_iff (by positivity)]
    linarith

/-! ### C62 -/

/-- C62, partial: the values of two overlapping particles in their neck. Where the point is more than half in both
spheres, the two values add up to one in the diffuse layer around the contact plane, and outside of it only the
particle on whose side the point is has its value. Missing: configurations for which the two contact planes
differ (`C59_violated`) or the frame is NaN (`C61_collinear`). -/
theorem C62_neck_partial {E : CloudExt K P} (hE : EuclidOk E) (hsin : ∀ x, E.sinPi (-x) = - E.sinPi x) (w : K) (hw : 0 < w)
    (p1 p2 : Part K P) (h1 : 0 ≤ p1.radius) (h2 : 0 ≤ p2.radius)
    (hle : E.dist p2.center p1.center ≤ p1.radius + p2.radius) (hge : |p1.radius - p2.radius| ≤ E.dist p2.center p1.center)
    (ha : p2.radius * p2.radius ≤ E.dist p2.center p1.center * E.dist p2.center p1.center + p1.radius * p1.radius)
    (hb : p1.radius * p1.radius ≤ E.dist p2.center p1.center * E.dist p2.center p1.center + p2.radius * p2.radius)
    (c12 c21 : Contact P) (row12 ctr12 row21 ctr21 : P)
    (hc12 : makeContact E p1 p2 = .ok c12) (hf12 : c12.frame = some (row12, ctr12))
    (hc21 : makeContact E p2 p1 = .ok c21) (hf21 : c21.frame = some (row21, ctr21)) (v1 v2 : K)
    (hv1 : 1 / 2 < v1) (hv2 : 1 / 2 < v2) (x : P) :
    let xp := E.dot row12 (x - ctr12)
    let e1 := contactValue E w v1 v2 c12 x
    let e2 := contactValue E w v2 v1 c21 x
    (-w / 2 < xp → xp < w / 2 → e1 + e2 = 1) ∧ (xp ≤ -w / 2 → e1 = v1 ∧ e2 = 0) ∧ (w / 2 ≤ xp → e1 = 0 ∧ e2 = v2) := by
  intro xp e1 e2
  obtain ⟨hd, dm1, hdm1, hrow1, hctr1⟩ := makeContact_frame hE p1 p2 c12 row12 ctr12 hc12 hf12
  obtain ⟨_, dm2, hdm2, hrow2, hctr2⟩ := makeContact_frame hE p2 p1 c21 row21 ctr21 hc21 hf21
  rw [hE.dist_comm p1.center p2.center] at hdm2 hrow2
  set d := E.dist p2.center p1.center with hdd
  obtain ⟨m1, m2, g1, g2, g3⟩ := C59_same_plane_partial E.sqrt hE.sqrt p1.radius p2.radius d h1 h2 hd hle hge ha hb
  rw [hdm1] at g1; cases g1
  rw [hdm2] at g2; cases g2
  have hrow : row21 = -row12 := by rw [hrow1, hrow2, ← smul_neg, neg_sub]
  have hDD : E.dot (p2.center - p1.center) (p2.center - p1.center) = d * d := (hE.dist_mul_self _ _).symm
  have hdrow : d • row12 = p2.center - p1.center := by
    rw [hrow1, smul_smul, mul_one_div, div_self hd.ne', one_smul]
  have hctr : ctr21 = ctr12 := by
    rw [hctr2, hctr1, hrow, smul_neg]
    have : p2.center = p1.center + (dm1 + dm2) • row12 := by rw [g3, hdrow]; abel
    rw [this, add_smul]; abel
  have hxp2 : E.dot row21 (x - ctr21) = -xp := by rw [hrow, hctr, hE.neg_left]
  have he1 : e1 = if xp < w / 2 then if 1 / 2 < v2 ∧ -w / 2 < xp then 1 / 2 - 1 / 2 * E.sinPi (xp / w) else v1 else 0 := by
    show contactValue E w v1 v2 c12 x = _
    simp only [contactValue, hf12]; rfl
  have he2 : e2 = if -xp < w / 2 then if 1 / 2 < v1 ∧ -w / 2 < -xp then 1 / 2 - 1 / 2 * E.sinPi (-xp / w) else v2 else 0 := by
    show contactValue E w v2 v1 c21 x = _
    simp only [contactValue, hf21, hxp2]
  have hww : -w / 2 = -(w / 2) := by ring
  refine ⟨fun ha hb => ?_, fun ha => ?_, fun ha => ?_⟩
  · rw [he1, he2, if_pos hb, if_pos ⟨hv2, ha⟩, if_pos (by linarith), if_pos ⟨hv1, by linarith⟩, neg_div, hsin]
    ring
  · rw [he1, he2, if_pos (by linarith), if_neg (fun h => absurd h.2 (not_lt.2 ha)), if_neg (by linarith)]
    exact ⟨rfl, rfl⟩
  · rw [he1, he2, if_neg (not_lt.2 ha), if_pos (by linarith), if_neg (fun h => by linarith [h.2])]
    exact ⟨rfl, rfl⟩

/-! ### C60 -/

/-- Values of a sine. -/
def SinOk (E : Ext K P) : Prop := ∀ x, -1 ≤ E.sinPi x ∧ E.sinPi x ≤ 1

private theorem mapM_ok_mem {α β : Type} (f : α → Res β) (l : List α) (r : List β) (h : l.mapM f = .ok r) :
    (∀ b ∈ r, ∃ a ∈ l, f a = .ok b) ∧ ∀ a ∈ l, ∃ b ∈ r, f a = .ok b := by
  induction l generalizing r with
  | nil => cases h; simp
  | cons a l ih =>
    rw [List.mapM_cons, Res.bind_eq_ok] at h
    obtain ⟨b, hb, h⟩ := h
    rw [Res.bind_eq_ok] at h
    obtain ⟨bs, hbs, h⟩ := h
    cases h
    obtain ⟨h1, h2⟩ := ih bs hbs
    constructor
    · intro x hx
      rcases List.mem_cons.1 hx with rfl | hx
      · exact ⟨a, by simp, hb⟩
      · obtain ⟨y, hy, e⟩ := h1 x hx; exact ⟨y, by simp [hy], e⟩
    · intro x hx
      rcases List.mem_cons.1 hx with rfl | hx
      · exact ⟨b, by simp, hb⟩
      · obtain ⟨y, hy, e⟩ := h2 x hx; exact ⟨y, by simp [hy], e⟩

private theorem contacts_mem {E : CloudExt K P} (ps : List (Part K P)) (cs : List ((Nat × Nat) × Contact P))
    (h : contacts E ps = .ok cs) :
    (∀ i j c, ((i, j), c) ∈ cs → ∃ p1 p2, ps[i]? = some p1 ∧ ps[j]? = some p2 ∧ i ≠ j ∧ overlap E.toExt p1 p2 = true ∧
      makeContact E p1 p2 = .ok c) ∧
    ∀ i j p1 p2, ps[i]? = some p1 → ps[j]? = some p2 → i ≠ j → overlap E.toExt p1 p2 = true →
      ∃ c, ((i, j), c) ∈ cs ∧ makeContact E p1 p2 = .ok c := by
  rw [contacts, Res.bind_eq_ok] at h
  obtain ⟨rows, hrows, h⟩ := h
  cases h
  obtain ⟨a1, a2⟩ := mapM_ok_mem _ _ _ hrows
  constructor
  · intro i j c hm
    obtain ⟨row, hrow, hm⟩ := List.mem_flatten.1 hm
    obtain ⟨⟨p1, i'⟩, hp1, hf⟩ := a1 row hrow
    obtain ⟨b1, -⟩ := mapM_ok_mem _ _ _ hf
    obtain ⟨⟨p2, j'⟩, hp2, hg⟩ := b1 _ hm
    obtain ⟨hp2', hcond⟩ := List.mem_filter.1 hp2
    dsimp only at hg
    rw [Res.bind_eq_ok] at hg
    obtain ⟨c', hc', hg⟩ := hg
    cases hg
    simp only [decide_eq_true_eq, Bool.decide_and, Bool.and_eq_true] at hcond
    refine ⟨p1, p2, ?_, ?_, hcond.1, hcond.2, hc'⟩
    · simpa using List.mem_zipIdx_iff_getElem?.1 hp1
    · simpa using List.mem_zipIdx_iff_getElem?.1 hp2'
  · intro i j p1 p2 h1 h2 hne ho
    obtain ⟨row, hrow, hf⟩ := a2 (p1, i) (List.mem_zipIdx_iff_getElem?.2 (by simpa using h1))
    obtain ⟨-, b2⟩ := mapM_ok_mem _ _ _ hf
    obtain ⟨y, hy, hg⟩ := b2 (p2, j) (List.mem_filter.2 ⟨List.mem_zipIdx_iff_getElem?.2 (by simpa using h2), by
      simp [hne, ho]⟩)
    dsimp only at hg
    rw [Res.bind_eq_ok] at hg
    obtain ⟨c, hc, hg⟩ := hg
    cases hg
    exact ⟨c, List.mem_flatten.2 ⟨row, hrow, hy⟩, hc⟩

private theorem lookup_of_mem {α : Type} (l : List ((Nat × Nat) × α)) (k : Nat × Nat) (a : α) (h : (k, a) ∈ l) :
    ∃ b, l.lookup k = some b ∧ (k, b) ∈ l := by
  induction l with
  | nil => simp at h
  | cons x l ih =>
    obtain ⟨k', a'⟩ := x
    by_cases hk : k = k'
    · subst hk; exact ⟨a', by simp [List.lookup], by simp⟩
    · have : (k, a) ∈ l := by
        rcases List.mem_cons.1 h with e | h
        · cases e; exact absurd rfl hk
        · exact h
      obtain ⟨b, h1, h2⟩ := ih this
      refine ⟨b, ?_, by simp [h2]⟩
      rw [List.lookup_cons, show (k == k') = false by simpa using hk]
      exact h1

private theorem secondary_spec (E : Ext K P) (d : Direction) (w : K) (ps : List (Part K P)) (p : P) (js : List Nat)
    (hj : ∀ j ∈ js, j < ps.length) (hid : ∀ (j : Nat) q, ps[j]? = some q → q.id = j) (s : K × Option Nat)
    (R : Nat → Prop) (hR : ∀ j ∈ js, R j) (hs : ∀ j, s.2 = some j → R j) :
    ∃ s', secondary E d w ps p js s = .ok s' ∧ ∀ j, s'.2 = some j → R j := by
  induction js generalizing s with
  | nil => exact ⟨s, by obtain ⟨a, b⟩ := s; rfl, hs⟩
  | cons j js ih =>
    obtain ⟨c, o⟩ := s
    have hjl := hj j (by simp)
    rw [secondary, Res.index_ok hjl, Res.ok_bind]
    refine ih (fun a ha => hj a (by simp [ha])) _ (fun a ha => hR a (by simp [ha])) ?_
    intro a ha
    split at ha
    · have : (ps[j]).id = j := hid j _ (List.getElem?_eq_getElem hjl)
      simp only [Option.some.injEq] at ha
      rw [← ha, this]
      exact hR j (by simp)
    · exact hs a ha

private theorem neighbours_mem (E : Ext K P) (ps : List (Part K P)) (i : Nat) (p1 : Part K P) (j : Nat) :
    j ∈ neighbours E ps i p1 ↔ ∃ p2, ps[j]? = some p2 ∧ i ≠ j ∧ overlap E p1 p2 = true := by
  rw [neighbours, List.mem_map]
  constructor
  · rintro ⟨⟨p2, j'⟩, hm, rfl⟩
    obtain ⟨h1, h2⟩ := List.mem_filter.1 hm
    simp only [decide_eq_true_eq, Bool.decide_and, Bool.and_eq_true] at h2
    exact ⟨p2, by simpa using List.mem_zipIdx_iff_getElem?.1 h1, h2.1, h2.2⟩
  · rintro ⟨p2, h1, h2, h3⟩
    exact ⟨(p2, j), List.mem_filter.2 ⟨List.mem_zipIdx_iff_getElem?.2 (by simpa using h1), by simp [h2, h3]⟩, rfl⟩

/-- C60: with particles numbered consecutively (as read from a table, C42) the value of a particle is always defined, lies
between 0 and 1, and vanishes outside of the particle's diffuse sphere. -/
theorem C60_particle {E : CloudExt K P} (hcos : CosOk E.toExt) (hsin : SinOk E.toExt) (d : Direction) (w : K) (hw : 0 < w)
    (ps : List (Part K P)) (hid : ∀ (j : Nat) q, ps[j]? = some q → q.id = j) (cs : List ((Nat × Nat) × Contact P))
    (hcs : contacts E ps = .ok cs) (p : P) (i : Nat) (cur : Part K P) (hi : ps[i]? = some cur) :
    ∃ v, valueForParticle E d w ps cs p i cur = .ok v ∧ 0 ≤ v ∧ v ≤ 1 ∧
      (isInSphere E.toExt d w p cur.center cur.radius = 0 → v = 0) := by
  obtain ⟨k1, k2, -, -⟩ := C57_sphere E.toExt hcos d w hw p cur.center cur.radius
  unfold valueForParticle
  dsimp only
  by_cases h0 : isInSphere E.toExt d w p cur.center cur.radius ≠ 0
  · rw [if_pos h0]
    obtain ⟨⟨cSec, o⟩, hs, hR⟩ := secondary_spec E.toExt d w ps p (neighbours E.toExt ps i cur)
      (fun j hj => by
        obtain ⟨p2, h, -⟩ := (neighbours_mem E.toExt ps i cur j).1 hj
        exact (List.getElem?_eq_some_iff.1 h).1) hid (0, none) (fun j => j ∈ neighbours E.toExt ps i cur) (fun j h => h)
      (by simp)
    rw [hs, Res.ok_bind]
    dsimp only
    cases o with
    | none => exact ⟨_, rfl, k1, k2, fun h => absurd h h0⟩
    | some j =>
      obtain ⟨p2, hp2, hne, ho⟩ := (neighbours_mem E.toExt ps i cur j).1 (hR j rfl)
      obtain ⟨c, hc, -⟩ := (contacts_mem ps cs hcs).2 i j cur p2 hi hp2 hne ho
      obtain ⟨c', hl, -⟩ := lookup_of_mem cs (i, j) c hc
      dsimp only
      rw [hid i cur hi, hl, Res.at?_some, Res.ok_bind]
      refine ⟨_, rfl, ?_, ?_, fun h => absurd h h0⟩
      · unfold contactValue
        split
        · exact le_refl _
        · dsimp only
          split
          · split
            · rename_i row ctr _ _ _
              have := (hsin (E.dot row (p - ctr) / w)).2
              linarith
            · exact k1
          · exact le_refl _
      · unfold contactValue
        split
        · exact zero_le_one
        · dsimp only
          split
          · split
            · rename_i row ctr _ _ _
              have := (hsin (E.dot row (p - ctr) / w)).1
              linarith
            · exact k2
          · exact zero_le_one
  · rw [if_neg h0]
    exact ⟨_, rfl, k1, k2, fun h => h⟩

/-- C60, partial: particles which are not close in the sense of the colouring have no common point with positive values.
Missing: the interface direction `inside`, for which the interface extends by its whole width beyond the radius
(`C60_inside_violated`). -/
theorem C60_exclusive_partial {E : Ext K P} (hcomm : ∀ x y, E.dist x y = E.dist y x)
    (htri : ∀ x y z, E.dist x z ≤ E.dist x y + E.dist y z) (d : Direction) (hd : d ≠ .inside) (w : K) (hw : 0 < w)
    (ri rr : K) (hri : 0 ≤ ri) (hrr : 0 ≤ rr) (p1 p2 : Part K P) (h1 : 0 ≤ p1.radius) (h2 : 0 ≤ p2.radius)
    (hclose : close E w ri rr p1 p2 = false) (p : P) :
    isInSphere E d w p p1.center p1.radius = 0 ∨ isInSphere E d w p p2.center p2.radius = 0 := by
  have hoff : 0 ≤ interfaceOffset d w := by
    unfold interfaceOffset
    rw [if_neg hd]
    split
    · linarith
    · exact le_refl _
  have hzero : ∀ (c : P) (r : K), r + w / 2 ≤ E.dist c p → isInSphere E d w p c r = 0 := by
    intro c r h
    unfold isInSphere
    dsimp only
    rw [if_neg (by linarith), if_neg (by linarith)]
  by_contra hc
  rw [not_or] at hc
  have e1 : E.dist p1.center p < p1.radius + w / 2 := by
    by_contra h; exact hc.1 (hzero _ _ (not_lt.1 h))
  have e2 : E.dist p2.center p < p2.radius + w / 2 := by
    by_contra h; exact hc.2 (hzero _ _ (not_lt.1 h))
  have ht := htri p2.center p p1.center
  rw [hcomm p p1.center] at ht
  unfold close at hclose
  simp only [decide_eq_false_iff_not, not_le] at hclose
  have hmax : 0 ≤ (if p1.radius < p2.radius then p2.radius else p1.radius) := by split <;> assumption
  have hb1 : 0 ≤ ri * w := mul_nonneg hri hw.le
  have hb2 : 0 ≤ rr * (if p1.radius < p2.radius then p2.radius else p1.radius) := mul_nonneg hrr hmax
  linarith

/-- C60, partial: an order parameter of a cloud has at every point the value of its only particle which reaches there (0
if there is none); so it does not depend on the order of the particles. `table` assigns the order parameters such
that close particles are separated (C58). Same limitation as `C60_exclusive_partial`. -/
theorem C60_value_partial {E : CloudExt K P} (hcos : CosOk E.toExt) (hsin : SinOk E.toExt)
    (hcomm : ∀ x y, E.dist x y = E.dist y x) (htri : ∀ x y z, E.dist x z ≤ E.dist x y + E.dist y z)
    (d : Direction) (hd : d ≠ .inside) (w : K) (hw : 0 < w) (ri rr : K) (hri : 0 ≤ ri) (hrr : 0 ≤ rr)
    (ps : List (Part K P)) (hr : ∀ q ∈ ps, 0 ≤ q.radius) (hid : ∀ (j : Nat) q, ps[j]? = some q → q.id = j)
    (cs : List ((Nat × Nat) × Contact P)) (hcs : contacts E ps = .ok cs) (table : OMap (List Nat))
    (htable : IsAssignment table ps.length fun g h => g ≠ h ∧ ∃ q q', ps[g]? = some q ∧ ps[h]? = some q' ∧
      close E.toExt w ri rr q q' = true) (p : P) (op : Nat) (gs : List Nat) (hgs : table.get? op = some gs) :
    ∃ v, opValue E d w ps cs table p op = .ok v ∧ 0 ≤ v ∧ v ≤ 1 ∧
      ∀ g ∈ gs, ∀ q, ps[g]? = some q → isInSphere E.toExt d w p q.center q.radius ≠ 0 →
        valueForParticle E d w ps cs p g q = .ok v := by
  have hlt : op < table.length := (htable.contiguous op).1 (by rw [hgs]; rfl)
  have hb : ∀ g ∈ gs, g < ps.length := htable.bound op gs hgs
  -- values of the particles
  have hval : ∀ g ∈ gs, ∃ q v, ps[g]? = some q ∧ valueForParticle E d w ps cs p g q = .ok v ∧ 0 ≤ v ∧ v ≤ 1 ∧
      (isInSphere E.toExt d w p q.center q.radius = 0 → v = 0) := by
    intro g hg
    have hq : ps[g]? = some (ps[g]'(hb g hg)) := List.getElem?_eq_getElem (hb g hg)
    obtain ⟨v, h⟩ := C60_particle hcos hsin d w hw ps hid cs hcs p g _ hq
    exact ⟨_, v, hq, h⟩
  let F : Nat → K := fun g => match ps[g]? with
    | none => 0
    | some q => match valueForParticle E d w ps cs p g q with
      | .ok v => v
      | _ => 0
  have hF : ∀ g ∈ gs, (do
      let q ← Res.at? ps[g]?
      valueForParticle E d w ps cs p g q) = .ok (F g) := by
    intro g hg
    obtain ⟨q, v, h1, h2, -⟩ := hval g hg
    simp only [F, h1, h2, Res.at?_some, Res.ok_bind]
  obtain ⟨v, h1, h2, h3⟩ := firstNonzero_spec (fun g => do
      let q ← Res.at? ps[g]?
      valueForParticle E d w ps cs p g q) F gs hF
  have hFv : ∀ g ∈ gs, ∀ q, ps[g]? = some q → valueForParticle E d w ps cs p g q = .ok (F g) := by
    intro g hg q hq
    have := hF g hg
    rw [hq, Res.at?_some, Res.ok_bind] at this
    exact this
  have hop : opValue E d w ps cs table p op = .ok v := by
    unfold opValue
    rw [Res.assertThrow, decide_eq_true hlt, if_pos rfl, Res.ok_bind, hgs, Res.at?_some, Res.ok_bind]
    exact h1
  refine ⟨v, hop, ?_, ?_, ?_⟩
  · by_cases hv : v = 0
    · rw [hv]
    · obtain ⟨g, hg, rfl⟩ := h3 hv
      obtain ⟨q, v', e1, e2, e3, -⟩ := hval g hg
      rw [hFv g hg q e1] at e2; cases e2; exact e3
  · by_cases hv : v = 0
    · rw [hv]; exact zero_le_one
    · obtain ⟨g, hg, rfl⟩ := h3 hv
      obtain ⟨q, v', e1, e2, -, e4, -⟩ := hval g hg
      rw [hFv g hg q e1] at e2; cases e2; exact e4
  · intro g hg q hq hne
    by_cases hv : v = 0
    · rw [hFv g hg q hq, h2.1 hv g hg, hv]
    · obtain ⟨g', hg', rfl⟩ := h3 hv
      by_cases hgg : g' = g
      · rw [hgg]; exact hFv g hg q hq
      · exfalso
        obtain ⟨q', v', e1, e2, -, -, e5⟩ := hval g' hg'
        rw [hFv g' hg' q' e1] at e2; cases e2
        have hcl : close E.toExt w ri rr q' q = false := by
          cases hcl : close E.toExt w ri rr q' q with
          | false => rfl
          | true => exact absurd ⟨hgg, q', q, e1, hq, hcl⟩ (htable.separated g' g op gs hgs hg' hg)
        rcases C60_exclusive_partial hcomm htri d hd w hw ri rr hri hrr q' q (hr q' (List.mem_of_getElem? e1))
          (hr q (List.mem_of_getElem? hq)) hcl p with h | h
        · exact hv (e5 h)
        · exact hne h
end

/-! ### C61 -/

section
variable {K : Type} [Field K] [LinearOrder K] [IsStrictOrderedRing K]

/-- Specification: an orthonormal right handed frame. -/
def Orthonormal3 (f : P3 K × P3 K × P3 K) : Prop :=
  dot3 f.1 f.1 = 1 ∧ dot3 f.2.1 f.2.1 = 1 ∧ dot3 f.2.2 f.2.2 = 1 ∧ dot3 f.1 f.2.1 = 0 ∧ dot3 f.1 f.2.2 = 0 ∧
    dot3 f.2.1 f.2.2 = 0

/-- C61, two dimensions: the axes are orthonormal and the first one is the direction of the contact. -/
theorem C61_frame2 (ex : P2 K) (h : dot2 ex ex = 1) :
    (frame2 ex).1 = ex ∧ dot2 (frame2 ex).2 (frame2 ex).2 = 1 ∧ dot2 (frame2 ex).1 (frame2 ex).2 = 0 := by
  refine ⟨rfl, ?_, ?_⟩
  · simp only [frame2, cross2, dot2] at h ⊢; linarith
  · simp only [frame2, cross2, dot2]; ring

theorem C61_row2 (o e r : P2 K) (h : row2 o e = .ok (some r)) : r = e := by
  cases h; rfl

/-- C61, three dimensions, partial: whenever a frame is obtained (no NaN), it is orthonormal, and its first axis is the
direction of the contact. Missing: `C61_collinear`. -/
theorem C61_frame3_partial (sqrt : K → K) (hs : SqrtOk sqrt) (tol : K) (rnd : List (P3 K)) (origin ex : P3 K)
    (hex : dot3 ex ex = 1) (f : P3 K × P3 K × P3 K) (hf : frame3 sqrt tol rnd origin ex = .ok (some f)) :
    f.1 = ex ∧ Orthonormal3 f := by
  unfold frame3 at hf
  rw [Res.bind_eq_ok] at hf
  obtain ⟨o, -, hf⟩ := hf
  generalize o - origin = z at hf
  obtain ⟨x1, x2, x3⟩ := ex
  obtain ⟨z1, z2, z3⟩ := z
  set c := cross3 (z1, z2, z3) (x1, x2, x3) with hc
  have hx : x1 * x1 + x2 * x2 + x3 * x3 = 1 := hex
  cases hn : normalize3 sqrt c with
  | none => rw [hn] at hf; simp at hf
  | some ey =>
    rw [hn] at hf
    simp only [Res.ok.injEq, Option.some.injEq] at hf
    subst hf
    unfold normalize3 at hn
    dsimp only at hn
    split at hn
    · cases hn
    rename_i hne
    cases hn
    have h0 : 0 ≤ dot3 c c := by
      unfold dot3
      have := mul_self_nonneg c.1
      have := mul_self_nonneg c.2.1
      have := mul_self_nonneg c.2.2
      linarith
    obtain ⟨-, hnn⟩ := hs (dot3 c c) h0
    set n := sqrt (dot3 c c) with hndef
    have hcc : c.1 * c.1 + c.2.1 * c.2.1 + c.2.2 * c.2.2 = n * n := by rw [hnn]; rfl
    have hperp : x1 * c.1 + x2 * c.2.1 + x3 * c.2.2 = 0 := by
      rw [hc]; simp only [cross3]; ring
    obtain ⟨c1, c2, c3⟩ := c
    simp only at hcc hperp hne
    have hyy : c1 / n * (c1 / n) + c2 / n * (c2 / n) + c3 / n * (c3 / n) = 1 := by
      have : c1 / n * (c1 / n) + c2 / n * (c2 / n) + c3 / n * (c3 / n) = (c1 * c1 + c2 * c2 + c3 * c3) / (n * n) := by
        field_simp
      rw [this, hcc, div_self (mul_ne_zero hne hne)]
    have hxy : x1 * (c1 / n) + x2 * (c2 / n) + x3 * (c3 / n) = 0 := by
      have : x1 * (c1 / n) + x2 * (c2 / n) + x3 * (c3 / n) = (x1 * c1 + x2 * c2 + x3 * c3) / n := by field_simp
      rw [this, hperp, zero_div]
    refine ⟨rfl, hx, hyy, ?_, hxy, ?_, ?_⟩
    · simp only [dot3, cross3]
      -- Lagrange's identity
      have : ∀ a1 a2 a3 b1 b2 b3 : K,
          (a2 * b3 - a3 * b2) * (a2 * b3 - a3 * b2) + (a3 * b1 - a1 * b3) * (a3 * b1 - a1 * b3) +
            (a1 * b2 - a2 * b1) * (a1 * b2 - a2 * b1) =
          (a1 * a1 + a2 * a2 + a3 * a3) * (b1 * b1 + b2 * b2 + b3 * b3) -
            (a1 * b1 + a2 * b2 + a3 * b3) * (a1 * b1 + a2 * b2 + a3 * b3) := by intros; ring
      rw [this, hx, hyy, hxy]; ring
    · simp only [dot3, cross3]; ring
    · simp only [dot3, cross3]; ring

theorem C61_row3 (sqrt : K → K) (tol : K) (rnd : List (P3 K)) (o e r : P3 K) (h : row3 sqrt tol rnd o e = .ok (some r)) :
    r = e := by
  unfold row3 frame3 at h
  rw [Res.bind_eq_ok] at h
  obtain ⟨f, hf, h⟩ := h
  rw [Res.bind_eq_ok] at hf
  obtain ⟨z, -, hf⟩ := hf
  split at hf
  · cases hf; cases h
  · cases hf; cases h; rfl

/-- C61, violated: if the particle lies in the direction of its contact as seen from the origin of the coordinate system
(both particles on one ray from the origin), the default orientation point is accepted although it is collinear:
only `ex * ez = 1` is tested, not `-1`. The frame is NaN. -/
theorem C61_collinear (sqrt : K → K) (hs : SqrtOk sqrt) (tol : K) (htol : 0 < tol) (htol2 : tol < 2) (rnd : List (P3 K))
    (ex : P3 K) (hex : dot3 ex ex = 1) (t : K) (ht : tol ≤ t) :
    frame3 sqrt tol rnd (t * ex.1, t * ex.2.1, t * ex.2.2) ex = .ok none ∧
    row3 sqrt tol rnd (t * ex.1, t * ex.2.1, t * ex.2.2) ex = .ok none := by
  obtain ⟨x1, x2, x3⟩ := ex
  have hx : x1 * x1 + x2 * x2 + x3 * x3 = 1 := hex
  have htp : 0 < t := lt_of_lt_of_le htol ht
  have hdot : dot3 ((0, 0, 0) - ((t * x1, t * x2, t * x3) : P3 K)) ((0, 0, 0) - (t * x1, t * x2, t * x3)) = t * t := by
    simp only [dot3, Prod.mk_sub_mk]
    linear_combination (t * t) * hx
  have hn : sqrt (t * t) = t := by rw [hs.abs, abs_of_pos htp]
  have hcheck : checkOrientation sqrt tol (t * x1, t * x2, t * x3) (x1, x2, x3) (0, 0, 0) = true := by
    unfold checkOrientation
    dsimp only
    rw [hdot, hn, if_neg (not_lt.2 ht)]
    have : dot3 (x1, x2, x3) (((0 : K), (0 : K), (0 : K)).1 / t, 0, 0) = 0 := by simp [dot3]
    have e : dot3 (x1, x2, x3) ((((0 : K), (0 : K), (0 : K)) - (t * x1, t * x2, t * x3)).1 / t,
        (((0 : K), (0 : K), (0 : K)) - (t * x1, t * x2, t * x3)).2.1 / t,
        (((0 : K), (0 : K), (0 : K)) - (t * x1, t * x2, t * x3)).2.2 / t) = -1 := by
      simp only [dot3, Prod.mk_sub_mk, zero_sub]
      field_simp
      linarith
    rw [e]
    have : ¬ |(-1 : K) - 1| < tol := by
      rw [show (-1 : K) - 1 = -2 by ring, abs_neg, abs_of_pos (by norm_num)]
      linarith
    simp [this]
  have hframe : frame3 sqrt tol rnd (t * x1, t * x2, t * x3) (x1, x2, x3) = .ok none := by
    unfold frame3 orientationPoint
    rw [if_pos hcheck, Res.ok_bind]
    have hz : cross3 ((0, 0, 0) - ((t * x1, t * x2, t * x3) : P3 K)) (x1, x2, x3) = (0, 0, 0) := by
      simp only [cross3, Prod.mk_sub_mk, Prod.mk.injEq]
      refine ⟨by ring, by ring, by ring⟩
    rw [hz]
    unfold normalize3
    dsimp only
    have h00 : sqrt (dot3 ((0, 0, 0) : P3 K) (0, 0, 0)) = 0 := by
      have := hs.abs 0
      simpa [dot3] using this
    rw [if_pos h00]
  exact ⟨hframe, by unfold row3; rw [hframe]; rfl⟩

/-- Consequence: with a NaN frame the particle vanishes wherever the contact is considered. -/
theorem C61_hole {P : Type} [AddCommGroup P] (E : CloudExt K P) (w cMain cSec : K) (c : Contact P) (h : c.frame = none) (p : P) :
    contactValue E w cMain cSec c p = 0 := by
  unfold contactValue; rw [h]
end

namespace Ex60

/-- Points of the plane on the first axis; the square root is only needed for a few numbers. -/
def sq (x : ℚ) : ℚ := if x = 4 then 2 else if x = 9 then 3 else if x = 16 then 4 else if x = 1 / 4 then 1 / 2 else
  if x = 25 then 5 else if x = 576 / 25 then 24 / 5 else if x = 49 / 25 then 7 / 5 else if x = 144 then 12 else
  if x = 256 / 25 then 16 / 5 else if x = 81 / 25 then 9 / 5 else if x = 36 then 6 else if x = 1 then 1 else 0

/-- Spheres of radii 3 and 4 at distance 5: the plane is at 9/5 and 16/5 from the centres. -/
example : neckDistance sq 3 4 5 = some (9 / 5) ∧ neckDistance sq 4 3 5 = some (16 / 5) ∧ (9 / 5 + 16 / 5 : ℚ) = 5 := by
  refine ⟨?_, ?_, ?_⟩ <;> norm_num [neckDistance, neckRadius, sq]

/-- Radii 3, 5 and distance 3 give a negative distance of the plane; the code takes the absolute value. -/
example : planeDistance (3 : ℚ) 5 3 = -7 / 6 := by norm_num [planeDistance]

def E : CloudExt ℚ ℚ := { Ex57.E with sqrt := sq, dot := (· * ·), row := fun _ e => .ok (some e) }
def p1 : Part ℚ ℚ := ⟨0, 10, 0⟩
def p2 : Part ℚ ℚ := ⟨23 + 1 / 10, 10, 1⟩

/-- C60, violated for the direction `inside` with the default buffer of 1.5 interface widths: the particles are not
close for the colouring, so they may share an order parameter, but both are positive at a point. -/
theorem C60_inside_violated :
    close E.toExt 2 (1 / 2) 0 p1 p2 = false ∧
    isInSphere E.toExt .inside 2 (23 / 2) p1.center p1.radius = 1 / 4 ∧
    isInSphere E.toExt .inside 2 (23 / 2) p2.center p2.radius = 1 / 5 := by
  refine ⟨by decide +kernel, by decide +kernel, by decide +kernel⟩

/-- The same particles with the interface in the middle. -/
example : isInSphere E.toExt .middle 2 (23 / 2) p1.center p1.radius = 0 := by decide +kernel

/-- The plane with real square roots meets the assumptions on the external functions. -/
noncomputable def R2 : CloudExt ℝ (ℝ × ℝ) where
  dist x y := Real.sqrt (dot2 (x - y) (x - y))
  cosPi x := if x < 0 then 1 else if x < 1 then 1 - 2 * x else -1
  sinPi x := if x < -1 then -1 else if x < 1 then x else 1
  sqrt := Real.sqrt
  dot := dot2
  row := row2

example : EuclidOk R2 where
  add_left x y z := by simp only [R2, dot2, Prod.fst_add, Prod.snd_add]; ring
  smul_left a x y := by simp only [R2, dot2, Prod.smul_fst, Prod.smul_snd, smul_eq_mul]; ring
  symm x y := by simp only [R2, dot2]; ring
  nonneg x := by
    simp only [R2, dot2]
    have := mul_self_nonneg x.1
    have := mul_self_nonneg x.2
    linarith
  sqrt x hx := ⟨Real.sqrt_nonneg x, Real.mul_self_sqrt hx⟩
  dist x y := rfl
  row := C61_row2

example : CosOk R2.toExt ∧ SinOk R2.toExt := by
  constructor <;> intro x <;> simp only [R2] <;> split_ifs <;> constructor <;> linarith

/-- A metric for the separation of particles. -/
example : (∀ x y, Ex57.E.dist x y = Ex57.E.dist y x) ∧ ∀ x y z, Ex57.E.dist x z ≤ Ex57.E.dist x y + Ex57.E.dist y z := by
  constructor
  · intro x y; simp only [Ex57.E]; split_ifs <;> linarith
  · intro x y z; simp only [Ex57.E]; split_ifs <;> linarith

/-- Two separated particles with one order parameter, and two overlapping ones. -/
def cloud : List (Part ℚ ℚ) := [⟨0, 3, 0⟩, ⟨5, 4, 1⟩, ⟨30, 3, 2⟩]
example : (do
    let cs ← contacts E cloud
    opValue E .middle 2 cloud cs [(0, [0, 2]), (1, [1])] (9 / 5) 0) = .ok (1 / 2) ∧ (do
    let cs ← contacts E cloud
    opValue E .middle 2 cloud cs [(0, [0, 2]), (1, [1])] (9 / 5) 1) = .ok (1 / 2) := by
  constructor <;> decide +kernel

end Ex60

end Verif.Props
