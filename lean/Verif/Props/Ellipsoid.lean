import Verif.Lemmas.Ellipsoid
import Mathlib.Tactic.NormNum
import Mathlib.Tactic.FinCases
import Mathlib.Tactic.LinearCombination
import Mathlib.LinearAlgebra.CrossProduct

/-!
C74 ellipsoids, C75 distance of ellipsoids, C76 elliptical representations, C77 rotations.
-/

namespace Verif.Props

open Matrix Verif.Ellipsoid Spec.Ellipsoid

variable {n : Nat}

/-! ### C74 -/

/-- An ellipsoid built from centre, radii and orthonormal axes contains, up to the tolerance, exactly the points of the image
of the unit ball. -/
theorem C74_point_inside {c r : Vec n} {axes : Fin n → Vec n} (h : Orthonormal axes) (hr : ∀ d, 0 < r d) (p : Vec n)
    (tol : ℝ) :
    pointInside (mkEll c (some r) axes) p tol = true ↔ Region c r axes (1 + 2 * tol) p := by
  have hr' : ∀ d, r d ≠ 0 := fun d => (hr d).ne'
  rw [region_iff h hr']
  simp only [pointInside, mkEll_form hr', decide_eq_true_eq, form_eval]
  constructor <;> intro h <;> linarith

/-- Scaling an ellipsoid scales the set of its points about the centre. -/
theorem C74_scaled {c r : Vec n} {axes : Fin n → Vec n} (h : Orthonormal axes) (hr : ∀ d, 0 < r d) {s : ℝ} (hs : 0 < s)
    (v : Vec n) :
    pointInside (scaled (mkEll c (some r) axes) s) (c + s • v) 0 = pointInside (mkEll c (some r) axes) (c + v) 0 := by
  have hr' : ∀ d, r d ≠ 0 := fun d => (hr d).ne'
  have hrs : ∀ d, 0 < r d * s := fun d => mul_pos (hr d) hs
  have e : scaled (mkEll c (some r) axes) s = mkEll c (some fun d => r d * s) axes := rfl
  rw [e, Bool.eq_iff_iff, C74_point_inside h hrs, C74_point_inside h hr, region_iff h (fun d => (hrs d).ne'),
    region_iff h hr']
  have : ∀ d, (axes d ⬝ᵥ (c + s • v - c)) / (r d * s) = (axes d ⬝ᵥ (c + v - c)) / r d := by
    intro d
    rw [add_sub_cancel_left, add_sub_cancel_left, dotProduct_smul, smul_eq_mul, mul_comm s,
      mul_div_mul_right _ _ hs.ne']
  simp only [this]

/-- Moments of inertia of an ellipse with half axes `a`, `b` and measure `m` give back the half axes. -/
theorem C74_radii_2d {a b m : ℝ} (ha : 0 ≤ a) (hb : 0 ≤ b) (hm : 0 < m) :
    radiiFromInertia2 ![m / 4 * b ^ 2, m / 4 * a ^ 2] m = some ![a, b] := by
  have e1 : 4 / m * (m / 4 * a ^ 2) = a ^ 2 := by field_simp
  have e2 : 4 / m * (m / 4 * b ^ 2) = b ^ 2 := by field_simp
  simp only [radiiFromInertia2, cons_val_zero, cons_val_one, e1, e2]
  rw [if_neg (by rintro (h | h | h); exacts [hm.ne' h, absurd h (not_lt.mpr (sq_nonneg a)), absurd h (not_lt.mpr (sq_nonneg b))]),
    Real.sqrt_sq ha, Real.sqrt_sq hb]

/-- Moments of inertia of an ellipsoid with half axes `a`, `b`, `c` and measure `m` give back the half axes. -/
theorem C74_radii_3d {a b c m : ℝ} (ha : 0 ≤ a) (hb : 0 ≤ b) (hc : 0 ≤ c) (hm : 0 < m) :
    radiiFromInertia3 ![m / 5 * (b ^ 2 + c ^ 2), m / 5 * (a ^ 2 + c ^ 2), m / 5 * (a ^ 2 + b ^ 2)] m
      = some ![a, b, c] := by
  have e1 : 5 / 2 / m * (m / 5 * (a ^ 2 + c ^ 2) + m / 5 * (a ^ 2 + b ^ 2) - m / 5 * (b ^ 2 + c ^ 2)) = a ^ 2 := by
    field_simp; ring
  have e2 : 5 / 2 / m * (m / 5 * (b ^ 2 + c ^ 2) + m / 5 * (a ^ 2 + b ^ 2) - m / 5 * (a ^ 2 + c ^ 2)) = b ^ 2 := by
    field_simp; ring
  have e3 : 5 / 2 / m * (m / 5 * (b ^ 2 + c ^ 2) + m / 5 * (a ^ 2 + c ^ 2) - m / 5 * (a ^ 2 + b ^ 2)) = c ^ 2 := by
    field_simp; ring
  have v1 : (![m / 5 * (b ^ 2 + c ^ 2), m / 5 * (a ^ 2 + c ^ 2), m / 5 * (a ^ 2 + b ^ 2)] : Vec 3) 2
      = m / 5 * (a ^ 2 + b ^ 2) := rfl
  simp only [radiiFromInertia3, cons_val_zero, cons_val_one, v1, e1, e2, e3]
  rw [if_neg (by
    rintro (h | h | h | h)
    exacts [hm.ne' h, absurd h (not_lt.mpr (sq_nonneg a)), absurd h (not_lt.mpr (sq_nonneg b)),
      absurd h (not_lt.mpr (sq_nonneg c))]),
    Real.sqrt_sq ha, Real.sqrt_sq hb, Real.sqrt_sq hc]

/-- The constructor from a quadratic form does not give back the radii: the eigenvalues of the form of an ellipsoid are
`1 / r^2`, and the radii computed from them and `alpha` are right only if the value `c^T A c` is two. -/
theorem C74_form_violated {c r : Vec n} {axes : Fin n → Vec n} (hr : ∀ d, 0 < r d) (d0 : Fin n)
    (h : radiiFromForm (fun d => 1 / r d ^ 2) (quadraticForm c r axes).alpha = some r) :
    ((quadraticForm c r axes).A *ᵥ c) ⬝ᵥ c = 2 := by
  have ha : (quadraticForm c r axes).alpha = 1 / 2 * (((quadraticForm c r axes).A *ᵥ c) ⬝ᵥ c) - 1 / 2 := rfl
  simp only [radiiFromForm] at h
  split at h
  · exact absurd h (by simp)
  · rename_i hn
    push Not at hn
    obtain ⟨h0, hp⟩ := hn
    have h1 := congrFun (Option.some.inj h) d0
    have h2 := hp d0
    generalize (quadraticForm c r axes).alpha = al at *
    have hrd := hr d0
    have hs : Real.sqrt (1 / r d0 ^ 2 * (1 / (2 * al))) = 1 / r d0 := by
      rw [eq_div_iff hrd.ne']
      have hsp : 0 < Real.sqrt (1 / r d0 ^ 2 * (1 / (2 * al))) := Real.sqrt_pos.mpr h2
      rw [div_eq_iff hsp.ne'] at h1
      linarith
    have h3 : 1 / r d0 ^ 2 * (1 / (2 * al)) = (1 / r d0) ^ 2 := by
      rw [← hs, Real.sq_sqrt h2.le]
    have h4 : 1 / (2 * al) = 1 := by
      have h5 : (1 / r d0) ^ 2 ≠ 0 := by positivity
      rw [← one_div_pow] at h3
      exact mul_left_cancel₀ h5 (by rw [h3, mul_one])
    have h5 : 2 * al = 1 := by
      have := one_div_one_div (2 * al)
      rw [h4] at this
      linarith
    linarith

/-- In particular an ellipsoid centred at the origin is never recovered. -/
theorem C74_form_origin_violated {r : Vec n} {axes : Fin n → Vec n} (hr : ∀ d, 0 < r d) (d0 : Fin n) :
    radiiFromForm (fun d => 1 / r d ^ 2) (quadraticForm 0 r axes).alpha ≠ some r := by
  intro h
  have := C74_form_violated hr d0 h
  simp at this

/-! ### C75 -/

/-- The distance reported for two ellipsoids with different centres is never a failure, takes at most the given number of
iterations and is the distance of two points of the ellipsoids; hence never smaller than the distance of the ellipsoids, and zero
is reported only if the ellipsoids have a point in common. -/
theorem C75_attained_partial {c1 r1 c2 r2 : Vec n} {a1 a2 : Fin n → Vec n} (h1 : Orthonormal a1) (h2 : Orthonormal a2)
    (hr1 : ∀ d, 0 < r1 d) (hr2 : ∀ d, 0 < r2 d) (o : Options) (ho : (o.testRelative || o.testCollinear) = true)
    (hc : o.tol < Real.sqrt (distSq c2 c1)) (maxIter : Nat) :
    ∃ d it conv, distance (mkEll c1 (some r1) a1) (mkEll c2 (some r2) a2) o maxIter = .ok (d, it, conv) ∧
      it ≤ maxIter ∧ ∃ p q, Region c1 r1 a1 1 p ∧ Region c2 r2 a2 1 q ∧ d = Real.sqrt (distSq p q) := by
  have hr1' : ∀ d, r1 d ≠ 0 := fun d => (hr1 d).ne'
  have hr2' : ∀ d, r2 d ≠ 0 := fun d => (hr2 d).ne'
  have i1 : (quadraticForm c1 r1 a1).eval c1 < 0 := by rw [form_eval_quad, quad_center]; norm_num
  have i2 : (quadraticForm c2 r2 a2).eval c2 < 0 := by rw [form_eval_quad, quad_center]; norm_num
  have hlen : length (c2 - c1) > o.tol := hc
  obtain ⟨d, it, conv, e, hit, p, q, hp, hq, hd⟩ := iterate_spec o
    (Real.sqrt (2 * o.tol / (rMax (mkEll c1 (some r1) a1) + rMax (mkEll c2 (some r2) a2))))
    (good_form (c := c1) h1 hr1') (good_form (c := c2) h2 hr2') maxIter 0 c1 c2 (length (c2 - c1)) i1 i2
    ⟨c1, c2, i1.le, i2.le, length_neg _ _⟩
  refine ⟨d, it, conv, ?_, by omega, p, q, ?_, ?_, hd⟩
  · rw [distance_mk hr1' hr2' o ho hlen]
    exact e
  · rw [region_iff h1 hr1']
    rw [form_eval] at hp
    linarith
  · rw [region_iff h2 hr2']
    rw [form_eval] at hq
    linarith

/-- The reported distance does not depend on the order of the two ellipsoids. -/
theorem C75_symmetric {c1 r1 c2 r2 : Vec n} {a1 a2 : Fin n → Vec n} (h1 : Orthonormal a1) (h2 : Orthonormal a2)
    (hr1 : ∀ d, 0 < r1 d) (hr2 : ∀ d, 0 < r2 d) (o : Options) (maxIter : Nat) :
    distance (mkEll c1 (some r1) a1) (mkEll c2 (some r2) a2) o maxIter
      = distance (mkEll c2 (some r2) a2) (mkEll c1 (some r1) a1) o maxIter := by
  have hr1' : ∀ d, r1 d ≠ 0 := fun d => (hr1 d).ne'
  have hr2' : ∀ d, r2 d ≠ 0 := fun d => (hr2 d).ne'
  have i1 : (quadraticForm c1 r1 a1).eval c1 < 0 := by rw [form_eval_quad, quad_center]; norm_num
  have i2 : (quadraticForm c2 r2 a2).eval c2 < 0 := by rw [form_eval_quad, quad_center]; norm_num
  simp only [distance, mkEll_form hr1', mkEll_form hr2']
  have e : ((mkEll c2 (some r2) a2).center - (mkEll c1 (some r1) a1).center) = c2 - c1 := rfl
  have e' : ((mkEll c1 (some r1) a1).center - (mkEll c2 (some r2) a2).center) = c1 - c2 := rfl
  rw [e, e', length_neg c1 c2, add_comm (rMax (mkEll c2 (some r2) a2))]
  split
  · rfl
  · split
    · rfl
    · exact iterate_swap o _ (good_form h1 hr1') (good_form h2 hr2') _ _ _ _ _ i1 i2

/-- Ellipsoids with coinciding centres are refused. -/
theorem C75_coinciding (E1 E2 : Ell n) (o : Options) (maxIter : Nat) (hc : E1.center = E2.center) (ht : 0 ≤ o.tol) :
    distance E1 E2 o maxIter = .exc .assertThrow := by
  rw [distance, hc, sub_self, length_zero]
  split
  · rfl
  · rw [if_pos (not_lt.mpr ht)]

/-- For two spheres which do not touch the distance is exact: at most two iterations give the distance of the centres minus the
radii, or zero if they overlap. -/
theorem C75_spheres {c1 c2 : Vec n} {a1 a2 : Fin n → Vec n} (h1 : Orthonormal a1) (h2 : Orthonormal a2) {r1 r2 : ℝ}
    (hr1 : 0 < r1) (hr2 : 0 < r2) (o : Options) (ho : o.testRelative = true) (ho' : o.testCollinear = false)
    (ht : 0 < o.tol) (hc : o.tol < Real.sqrt (distSq c2 c1)) (hne : Real.sqrt (distSq c2 c1) ≠ r1 + r2) (maxIter : Nat) :
    ∃ it, it ≤ 2 ∧
      distance (mkEll c1 (some fun _ => r1) a1) (mkEll c2 (some fun _ => r2) a2) o (maxIter + 2)
        = .ok (max 0 (Real.sqrt (distSq c2 c1) - (r1 + r2)), it, true) := by
  obtain ⟨L, hL⟩ : ∃ L, L = length (c2 - c1) := ⟨_, rfl⟩
  have hL' : Real.sqrt (distSq c2 c1) = L := hL.symm
  rw [hL'] at hc hne ⊢
  have hL0 : 0 < L := ht.trans hc
  obtain ⟨e, he, hce⟩ : ∃ e : Vec n, e ⬝ᵥ e = 1 ∧ c2 = c1 + L • e := by
    refine ⟨(1 / L) • (c2 - c1), ?_, ?_⟩
    · have : (c2 - c1) ⬝ᵥ (c2 - c1) = L ^ 2 := by
        rw [hL, length, Real.sq_sqrt]
        simp only [dotProduct]
        exact Finset.sum_nonneg fun i _ => mul_self_nonneg _
      rw [smul_dotProduct, dotProduct_smul, this]
      simp only [smul_eq_mul]
      field_simp
    · rw [smul_smul, mul_one_div_cancel hL0.ne', one_smul, add_sub_cancel]
  rw [distance_mk (fun _ => hr1.ne') (fun _ => hr2.ne') o (by simp [ho]) (by rw [← hL]; exact hc), ← hL]
  generalize Real.sqrt (2 * o.tol / (rMax (mkEll c1 (some fun _ => r1) a1) + rMax (mkEll c2 (some fun _ => r2) a2))) = eps
  subst hce
  have z1 : c1 = c1 + (0 : ℝ) • e := by simp
  have z2 : c1 + L • e = c1 + (L - 0) • e := by simp
  rcases lt_or_gt_of_ne hne with hlt | hgt
  · -- overlapping spheres
    rw [max_eq_left (by linarith)]
    refine ⟨0, by norm_num, ?_⟩
    have i1 : (quadraticForm c1 (fun _ => r1) a1).eval c1 < 0 := by rw [form_eval_quad, quad_center]; norm_num
    have i2 : (quadraticForm (c1 + L • e) (fun _ => r2) a2).eval (c1 + L • e) < 0 := by
      rw [form_eval_quad, quad_center]; norm_num
    rw [iterate]
    rcases intersection_spec (good_form (c := c1) h1 fun _ => hr1.ne') (c2 := c1 + L • e) (Or.inl i1)
      with ⟨e1, _, _⟩ | ⟨t1, e1, t10, t11, hx1, _⟩
    · rw [e1, Res.ok_bind]
      simp
    · rw [e1, Res.ok_bind]
      simp only [Bool.false_eq_true, if_false]
      rcases intersection_spec (good_form (c := c1 + L • e) h2 fun _ => hr2.ne') (c1 := c1) (Or.inr i2)
        with ⟨e2, _, _⟩ | ⟨t2, e2, t20, t21, hx2, _⟩
      · rw [e2, Res.ok_bind]
        simp
      · rw [e2, Res.ok_bind]
        have p1 : c1 + t1 • (c1 + L • e - c1) = c1 + (t1 * L) • e := by module
        have p2 : c1 + t2 • (c1 + L • e - c1) = c1 + L • e + (t2 * L - L) • e := by module
        rw [p1, sphere_eval h1 _ he] at hx1
        rw [p2, sphere_eval h2 _ he] at hx2
        have q1 : (t1 * L) ^ 2 = r1 ^ 2 := by
          have : (t1 * L) ^ 2 / r1 ^ 2 = 1 := by linarith
          rwa [div_eq_one_iff_eq (by positivity)] at this
        have q2 : (L - t2 * L) ^ 2 = r2 ^ 2 := by
          have : (t2 * L - L) ^ 2 / r2 ^ 2 = 1 := by linarith
          rw [div_eq_one_iff_eq (by positivity)] at this
          rw [← this]
          ring
        have q1' : t1 * L = r1 := by
          rwa [sq_eq_sq₀ (mul_nonneg t10 hL0.le) hr1.le] at q1
        have q2' : L - t2 * L = r2 := by
          rwa [sq_eq_sq₀ (by nlinarith) hr2.le] at q2
        have : t2 < t1 := by
          by_contra hn
          have := mul_le_mul_of_nonneg_right (not_lt.mp hn) hL0.le
          linarith
        simp [this]
  · -- disjoint spheres
    rw [max_eq_right (by linarith)]
    have step : ∀ α β : ℝ, 0 ≤ α → α < r1 → 0 ≤ β → β < r2 → ∀ (k iter : Nat) (dp : ℝ),
        iterate o eps (quadraticForm c1 (fun _ => r1) a1) (quadraticForm (c1 + L • e) (fun _ => r2) a2) (k + 1) iter
          (c1 + α • e) (c1 + (L - β) • e) dp =
        if converged o eps (quadraticForm c1 (fun _ => r1) a1) (quadraticForm (c1 + L • e) (fun _ => r2) a2)
            (L - (r1 + r2)) dp (c1 + r1 • e) (c1 + (L - r2) • e) then .ok (L - (r1 + r2), iter + 1, true)
        else iterate o eps (quadraticForm c1 (fun _ => r1) a1) (quadraticForm (c1 + L • e) (fun _ => r2) a2) k (iter + 1)
          ((quadraticForm c1 (fun _ => r1) a1).next (c1 + r1 • e))
          ((quadraticForm (c1 + L • e) (fun _ => r2) a2).next (c1 + (L - r2) • e)) (L - (r1 + r2)) := by
      intro α β hα0 hα hβ0 hβ k iter dp
      have hd : 0 < L - β - α := by linarith
      have hv : c1 + (L - β) • e - (c1 + α • e) = (L - β - α) • e := by module
      have x1 : c1 + α • e + ((r1 - α) / (L - β - α)) • (c1 + (L - β) • e - (c1 + α • e)) = c1 + r1 • e := by
        rw [hv, smul_smul, div_mul_cancel₀ _ hd.ne']
        module
      have x2 : c1 + α • e + ((L - r2 - α) / (L - β - α)) • (c1 + (L - β) • e - (c1 + α • e)) = c1 + (L - r2) • e := by
        rw [hv, smul_smul, div_mul_cancel₀ _ hd.ne']
        module
      have hlen : length (c1 + r1 • e - (c1 + (L - r2) • e)) = L - (r1 + r2) := by
        have : c1 + r1 • e - (c1 + (L - r2) • e) = (-(L - (r1 + r2))) • e := by module
        rw [this, length, smul_dotProduct, dotProduct_smul, he]
        simp only [smul_eq_mul, mul_one, neg_mul_neg]
        exact Real.sqrt_mul_self (by linarith)
      rw [iterate, sphere_hit h1 c1 hr1 he hα0 hα (by linarith), Res.ok_bind]
      simp only [Bool.false_eq_true, if_false]
      rw [sphere_hit' h2 c1 hr2 he hβ0 hβ (by linarith), Res.ok_bind]
      have : ¬ (L - r2 - α) / (L - β - α) < (r1 - α) / (L - β - α) :=
        not_lt.mpr (div_le_div_of_nonneg_right (by linarith) hd.le)
      simp only [this, decide_false, Bool.or_false, Bool.false_eq_true, if_false]
      rw [x1, x2, hlen]
    have hstep := step 0 0 (le_refl _) hr1 (le_refl _) hr2 (maxIter + 1) 0 L
    rw [← z1, ← z2] at hstep
    rw [hstep]
    split
    · exact ⟨1, by norm_num, rfl⟩
    · obtain ⟨α, hα0, hα, eα⟩ := sphere_next h1 c1 hr1 he
      have he' : (-e) ⬝ᵥ (-e) = 1 := by rw [neg_dotProduct, dotProduct_neg, neg_neg, he]
      obtain ⟨β, hβ0, hβ, eβ⟩ := sphere_next h2 (c1 + L • e) hr2 he'
      have q1 : c1 + L • e + r2 • -e = c1 + (L - r2) • e := by module
      have q2 : c1 + L • e + β • -e = c1 + (L - β) • e := by module
      rw [q1, q2] at eβ
      rw [eα, eβ, step α β hα0 hα hβ0 hβ]
      refine ⟨2, le_refl _, ?_⟩
      rw [if_pos]
      have : L - (r1 + r2) ≠ 0 := by have : 0 < L - (r1 + r2) := by linarith
                                     exact this.ne'
      simp [converged, ho', this, ht]

/-! ### C76 -/

/-- The representation of a particle with positive radii has the centre and axes of the ellipsoid of inertia and radii enlarged
by a common factor; every cell of the particle on every rank, moved outwards by half of its diameter, and the remote point lie in
it up to the tolerance. If it has been enlarged, one of these points lies on its surface. -/
theorem C76_encloses_partial {c r : Vec n} {axes : Fin n → Vec n} (h : Orthonormal axes) (hr : ∀ d, 0 < r d)
    (remote : Option (Vec n)) (ranks : List (List (Cell n))) :
    ∃ k : ℝ, 1 ≤ k ∧
      represent (mkEll c (some r) axes) remote ranks = .ok (mkEll c (some fun d => r d * k) axes) ∧
      (∀ cells ∈ ranks, ∀ cell ∈ cells, cell.barycenter ≠ c →
        Region c (fun d => r d * k) axes ((1 + 1 / 10 ^ 9) ^ 2) (outward c cell.barycenter (cell.diameter / 2))) ∧
      (∀ v, remote = some v → Region c (fun d => r d * k) axes 1 (c + v)) ∧
      (k = 1 ∨ ∃ p, (remote = some (p - c) ∨ ∃ cells ∈ ranks, ∃ cell ∈ cells, cell.barycenter ≠ c ∧
          p = outward c cell.barycenter (cell.diameter / 2)) ∧
        ∀ k', Region c (fun d => r d * k) axes k' p → 1 ≤ k') := by
  have hr' : ∀ d, r d ≠ 0 := fun d => (hr d).ne'
  obtain ⟨k1, hk1, e1, a1, b1⟩ := coverRemote_spec h hr' remote (c := c)
  have hk1' : 0 < k1 := by linarith
  have hrk : ∀ d, r d * k1 ≠ 0 := fun d => mul_ne_zero (hr' d) hk1'.ne'
  obtain ⟨s, e2, hs, a2, b2⟩ := particleScale_spec h hrk ranks (c := c)
  have hs0 : 0 < s := by linarith
  have hext : ∀ (cell : Cell n) p, extent c cell = some p →
      cell.barycenter ≠ c ∧ p = outward c cell.barycenter (cell.diameter / 2) := by
    intro cell p hp
    by_cases hne : cell.barycenter = c
    · rw [extent, if_pos (by rw [hne, sub_self, length_zero])] at hp
      exact absurd hp (by simp)
    · rw [extent_eq hne] at hp
      exact ⟨hne, (Option.some.inj hp).symm⟩
  rw [represent, e1, Res.ok_bind, e2, Res.ok_bind]
  by_cases hbig : s > 1 + 1 / 10 ^ 9
  · rw [if_pos hbig]
    have hks : ∀ d, r d * (k1 * s) ≠ 0 := fun d => mul_ne_zero (hr' d) (mul_pos hk1' hs0).ne'
    have hfun : (fun d => r d * k1 * s) = fun d => r d * (k1 * s) := by funext d; ring
    have hq : ∀ p, quad c (fun d => r d * (k1 * s)) axes p = quad c (fun d => r d * k1) axes p / s ^ 2 := by
      intro p; rw [← hfun, quad_scaled]
    have hone : ∀ p, quad c (fun d => r d * k1) axes p ≤ 1 + 2 / 10 ^ 9 ∨ quad c (fun d => r d * k1) axes p ≤ s ^ 2 →
        quad c (fun d => r d * (k1 * s)) axes p ≤ 1 := by
      intro p hp
      rw [hq, div_le_one (by positivity)]
      rcases hp with hp | hp
      · have : (1 + 1 / 10 ^ 9 : ℝ) ^ 2 ≤ s ^ 2 := pow_le_pow_left₀ (by positivity) hbig.le 2
        nlinarith
      · exact hp
    refine ⟨k1 * s, by nlinarith, by rw [← hfun]; rfl, ?_, ?_, ?_⟩
    · intro cells hcs cell hc hne
      have hp := extent_eq hne
      generalize outward c cell.barycenter (cell.diameter / 2) = p at hp ⊢
      refine (region_iff h hks _ p).mpr ?_
      refine (hone p (a2 cells hcs cell hc p hp)).trans ?_
      norm_num
    · intro v hv
      exact (region_iff h hks _ _).mpr (hone _ (Or.inl ((a1 v hv).trans (by norm_num))))
    · right
      rcases b2 with hs1 | ⟨cells, hcs, cell, hc, p, hp, hpq⟩
      · rw [hs1] at hbig
        norm_num at hbig
      · refine ⟨p, Or.inr ⟨cells, hcs, cell, hc, hext cell p hp⟩, ?_⟩
        intro k' hk'
        have h1 := (region_iff h hks k' p).mp hk'
        have h2 : quad c (fun d => r d * (k1 * s)) axes p = 1 := by
          rw [hq, hpq, div_self (by positivity)]
        exact h2 ▸ h1
  · rw [if_neg hbig]
    have hs2 : s ^ 2 ≤ (1 + 1 / 10 ^ 9) ^ 2 := pow_le_pow_left₀ hs0.le (not_lt.mp hbig) 2
    refine ⟨k1, hk1, rfl, ?_, ?_, ?_⟩
    · intro cells hcs cell hc hne
      have hp := extent_eq hne
      generalize outward c cell.barycenter (cell.diameter / 2) = p at hp ⊢
      refine (region_iff h hrk _ p).mpr ?_
      rcases a2 cells hcs cell hc p hp with hq | hq
      · refine hq.trans ?_
        norm_num
      · exact hq.trans hs2
    · intro v hv
      exact (region_iff h hrk _ _).mpr (a1 v hv)
    · rcases b1 with h1 | ⟨v, hv, hq⟩
      · exact Or.inl h1
      · right
        refine ⟨c + v, Or.inl (by rw [add_sub_cancel_left]; exact hv), ?_⟩
        intro k' hk'
        have := (region_iff h hrk k' _).mp hk'
        exact hq ▸ this

/-- With the barycentre moved outwards the barycentre itself is enclosed. -/
theorem C76_barycenter {c r b : Vec n} {axes : Fin n → Vec n} (h : Orthonormal axes) (hr : ∀ d, 0 < r d) {l k : ℝ}
    (hl : 0 ≤ l) (hp : Region c r axes k (outward c b l)) : Region c r axes k b := by
  have hr' : ∀ d, r d ≠ 0 := fun d => (hr d).ne'
  rw [region_iff h hr'] at hp ⊢
  exact (outward_quad hl).trans hp

/-- Particles with a vanishing moment in two dimensions, e.g. a row of cells or a single cell: the ellipsoid is not defined, it is
not enlarged and contains no point. -/
theorem C76_degenerate_violated (c : Vec 2) (I : Vec 2) (m : ℝ) (axes : Fin 2 → Vec 2) (hI : I 0 = 0 ∨ I 1 = 0)
    (remote : Option (Vec 2)) (ranks : List (List (Cell 2))) :
    ∃ E, represent (mkEll c (radiiFromInertia2 I m) axes) remote ranks = .ok E ∧ ∀ p tol, pointInside E p tol = false := by
  have hf : (mkEll c (radiiFromInertia2 I m) axes).form = none := by
    simp only [mkEll, radiiFromInertia2]
    split
    · rfl
    · rw [Option.bind_some, if_pos]
      rcases hI with h | h
      · exact ⟨1, by simp [h]⟩
      · exact ⟨0, by simp [h]⟩
  generalize mkEll c (radiiFromInertia2 I m) axes = E at hf
  have h1 : coverRemote E remote = .ok E := by
    cases remote with
    | none => rfl
    | some v => simp [coverRemote, hf, intersection]
  have h2 : ∀ acc cell, scaleCell E acc cell = .ok acc := by
    intro acc cell
    rw [scaleCell]
    split
    · rfl
    · simp [pointInside, hf, intersection]
  have h3 : ∀ (cells : List (Cell 2)) (acc : ℝ), cells.foldlM (scaleCell E) acc = .ok acc := by
    intro cells
    induction cells with
    | nil => intro acc; rfl
    | cons a l ih => intro acc; rw [List.foldlM_cons, h2, Res.ok_bind, ih]
  have h4 : ∀ ranks : List (List (Cell 2)),
      (ranks.mapM fun cells => cells.foldlM (scaleCell E) 1) = .ok (ranks.map fun _ => (1 : ℝ)) := by
    intro ranks
    induction ranks with
    | nil => rfl
    | cons a l ih => rw [List.mapM_cons, h3, Res.ok_bind, ih, Res.ok_bind]; rfl
  have h5 : ∀ ranks : List (List (Cell 2)), (ranks.map fun _ => (1 : ℝ)).foldl max 1 = 1 := by
    intro ranks
    induction ranks with
    | nil => rfl
    | cons a l ih => rw [List.map_cons, List.foldl_cons, max_self, ih]
  refine ⟨E, ?_, fun p tol => by simp [pointInside, hf]⟩
  rw [represent, h1, Res.ok_bind, particleScale, h4, Res.ok_bind, Res.ok_bind, h5]
  norm_num

/-! ### C77 -/

/-- The tensor built from two systems of axes maps the one onto the other and keeps scalar products. -/
theorem C77_axes {axes axes0 : Fin n → Vec n} (h : Orthonormal axes) (h0 : Orthonormal axes0) :
    (∀ d, rotationFromAxes axes axes0 *ᵥ axes d = axes0 d) ∧
    ∀ x y, (rotationFromAxes axes axes0 *ᵥ x) ⬝ᵥ (rotationFromAxes axes axes0 *ᵥ y) = x ⬝ᵥ y := by
  have hx : ∀ x, rotationFromAxes axes axes0 *ᵥ x = ∑ d, (axes d ⬝ᵥ x) • axes0 d := by
    intro x
    funext i
    rw [Finset.sum_apply]
    simp only [mulVec, dotProduct, rotationFromAxes, Pi.smul_apply, smul_eq_mul, Finset.sum_mul]
    rw [Finset.sum_comm]
    apply Finset.sum_congr rfl
    intro d _
    apply Finset.sum_congr rfl
    intro j _
    ring
  refine ⟨fun d => ?_, fun x y => ?_⟩
  · rw [hx, Finset.sum_eq_single d]
    · rw [h d d, if_pos rfl, one_smul]
    · intro e _ hne
      rw [h e d, if_neg hne, zero_smul]
    · simp
  · rw [hx x, hx y, sum_dotProduct]
    conv_rhs => rw [orthonormal_expand h x, sum_dotProduct]
    apply Finset.sum_congr rfl
    intro d _
    rw [smul_dotProduct, smul_dotProduct, orthonormal_coeff h0 (fun d => axes d ⬝ᵥ y)]

/-- The global variants are mutually inverse: the plain one has the axes as images of the unit vectors, the transposed one gives
the components with respect to the axes. -/
theorem C77_global (axes : Fin n → Vec n) :
    (∀ i j, rotationGlobal axes false i j = axes j i) ∧
    (∀ x d, (rotationGlobal axes true *ᵥ x) d = axes d ⬝ᵥ x) := by
  refine ⟨rotationGlobal_apply axes, fun x d => ?_⟩
  have : ∀ i j, rotationGlobal axes true i j = axes i j := by
    intro i j
    rw [rotationGlobal, if_pos rfl]
    show ∑ d, globalAxes d i * axes d j = axes i j
    simp [globalAxes]
  simp only [mulVec, dotProduct, this]

/-- The tensor built by quaternions from a unit axis is the rotation about this axis: it keeps the axis, rotates vectors
orthogonal to it by the angle (cosine `c^2 - s^2`, sine `2 s c`), and is orthogonal. -/
theorem C77_quaternions (axis v : Vec 3) {c s : ℝ} (ha : axis ⬝ᵥ axis = 1) (hcs : c ^ 2 + s ^ 2 = 1) :
    rotationViaQuaternions axis c s *ᵥ axis = axis ∧
    (axis ⬝ᵥ v = 0 → rotationViaQuaternions axis c s *ᵥ v = (c ^ 2 - s ^ 2) • v + (2 * s * c) • (axis ⨯₃ v)) ∧
    (rotationViaQuaternions axis c s)ᵀ * rotationViaQuaternions axis c s = 1 := by
  have ha' : axis 0 * axis 0 + axis 1 * axis 1 + axis 2 * axis 2 = 1 := by
    simpa [dotProduct, Fin.sum_univ_three] using ha
  generalize hx : axis 0 = x at ha'
  generalize hy : axis 1 = y at ha'
  generalize hz : axis 2 = z at ha'
  have hq : c ^ 2 + s ^ 2 * (x * x + y * y + z * z) = 1 := by linear_combination hcs + s ^ 2 * ha'
  refine ⟨?_, fun hv => ?_, ?_⟩
  · funext i
    fin_cases i <;>
      simp [rotationViaQuaternions, mulVec, dotProduct, Fin.sum_univ_three, hx, hy, hz] <;> ring
  · have hv' : x * v 0 + y * v 1 + z * v 2 = 0 := by
      simpa [dotProduct, Fin.sum_univ_three, hx, hy, hz] using hv
    funext i
    fin_cases i <;>
      simp [rotationViaQuaternions, mulVec, dotProduct, Fin.sum_univ_three, hx, hy, hz, cross_apply]
    · linear_combination 2 * s ^ 2 * x * hv' - 2 * s ^ 2 * v 0 * ha' - v 0 * hcs
    · linear_combination 2 * s ^ 2 * y * hv' - 2 * s ^ 2 * v 1 * ha' - v 1 * hcs
    · linear_combination 2 * s ^ 2 * z * hv' - 2 * s ^ 2 * v 2 * ha' - v 2 * hcs
  · ext i j
    fin_cases i <;> fin_cases j <;>
      simp [rotationViaQuaternions, Matrix.mul_apply, Fin.sum_univ_three, hx, hy, hz]
    · linear_combination 4 * s ^ 2 * (y * y + z * z) * hq
    · linear_combination -4 * s ^ 2 * (x * y) * hq
    · linear_combination -4 * s ^ 2 * (x * z) * hq
    · linear_combination -4 * s ^ 2 * (x * y) * hq
    · linear_combination 4 * s ^ 2 * (x * x + z * z) * hq
    · linear_combination -4 * s ^ 2 * (y * z) * hq
    · linear_combination -4 * s ^ 2 * (x * z) * hq
    · linear_combination -4 * s ^ 2 * (y * z) * hq
    · linear_combination 4 * s ^ 2 * (x * x + y * y) * hq

/-! ### Concrete cases -/

namespace Ex74

/-- axes rotated by the angle with cosine 4/5 -/
noncomputable def rotated : Fin 2 → Vec 2 := ![![4 / 5, 3 / 5], ![-3 / 5, 4 / 5]]

theorem rotated_orthonormal : Orthonormal rotated := by
  intro d e
  fin_cases d <;> fin_cases e <;> simp [rotated, dotProduct, Fin.sum_univ_two] <;> norm_num

theorem global_orthonormal : Orthonormal (globalAxes (n := 2)) := by
  intro d e
  fin_cases d <;> fin_cases e <;> simp [globalAxes, dotProduct]

/-- half axes 2 along (4/5, 3/5) and 1 across: the point (8/5, 6/5) at distance 2 from the centre is inside, the point
(-6/5, 8/5) is not -/
example : pointInside (mkEll 0 (some ![2, 1]) rotated) ![8 / 5, 6 / 5] 0 = true ∧
    pointInside (mkEll 0 (some ![2, 1]) rotated) ![-6 / 5, 8 / 5] 0 = false := by
  have hr : ∀ d, (![2, 1] : Vec 2) d ≠ 0 := by intro d; fin_cases d <;> simp
  simp only [pointInside, mkEll_form hr, form_eval]
  constructor
  · simp [rotated, dotProduct, Fin.sum_univ_two]
    norm_num
  · simp [rotated, dotProduct, Fin.sum_univ_two]
    norm_num

example : radiiFromInertia2 ![1, 4] 4 = some ![2, 1] := by
  have := C74_radii_2d (a := 2) (b := 1) (m := 4) (by norm_num) (by norm_num) (by norm_num)
  norm_num at this ⊢
  exact this

end Ex74

namespace Ex75

open Ex74

/-- Default options of `distance`. -/
noncomputable def dflt : Options := { testRelative := true, testCollinear := false, tol := 1 / 10 ^ 6 }

noncomputable def m : ℝ := 10 ^ 8

/-- radii of two needles: (1e-7, 10) along the axes, and about (5e-8, 2) rotated -/
noncomputable def radii1 : Vec 2 := ![1 / 10 ^ 7, 10]
noncomputable def radii2 : Vec 2 := ![4 / 5 / ((m ^ 2 - 1) * (3 / (20 * m))), 2]

noncomputable def needle1 : Ell 2 := mkEll 0 (some radii1) globalAxes
noncomputable def needle2 : Ell 2 := mkEll ![1, 0] (some radii2) rotated

theorem radii1_pos : ∀ d, 0 < radii1 d := by
  intro d; fin_cases d <;> simp [radii1]

theorem radii2_pos : ∀ d, 0 < radii2 d := by
  intro d; fin_cases d <;> simp [radii2, m] ; norm_num

/-- point of the line between the centres at which the second needle begins -/
noncomputable def gap : ℝ := 20 * m / (3 * (m ^ 2 + 1))

theorem hit1 : intersection needle1.form 0 ![1, 0] = .ok (1 / 10 ^ 7, false) := by
  have hr : ∀ d, radii1 d ≠ 0 := fun d => (radii1_pos d).ne'
  have ev : ∀ x : ℝ, (quadraticForm 0 radii1 globalAxes).eval ((0 : Vec 2) + x • (![1, 0] - 0))
      = 1 / 2 * (x ^ 2 * 10 ^ 14 - 1) := by
    intro x
    rw [form_eval]
    simp [radii1, globalAxes, dotProduct, Fin.sum_univ_two]
    ring
  have e0 := ev 0
  rw [zero_smul, add_zero] at e0
  rw [show needle1.form = some (quadraticForm 0 radii1 globalAxes) from mkEll_form hr]
  rcases intersection_spec (good_form global_orthonormal hr) (c2 := (![1, 0] : Vec 2))
    (Or.inl (by rw [e0]; norm_num)) with ⟨_, _, h⟩ | ⟨t, e, _, _, _, hun⟩
  · have e1 := ev 1
    rw [one_smul, zero_add, sub_zero] at e1
    rw [e1] at h
    norm_num at h
  · rw [e]
    have := hun (1 / 10 ^ 7) (by norm_num) (by norm_num) (by rw [ev]; norm_num)
    rw [this]

theorem hit2 : intersection needle2.form 0 ![1, 0] = .ok (1 - gap, false) := by
  have hr : ∀ d, radii2 d ≠ 0 := fun d => (radii2_pos d).ne'
  have ev : ∀ x : ℝ, (quadraticForm ![1, 0] radii2 rotated).eval ((0 : Vec 2) + x • (![1, 0] - 0))
      = 1 / 2 * (((1 - x) / gap) ^ 2 - 1) := by
    intro x
    rw [form_eval]
    simp [radii2, rotated, dotProduct, Fin.sum_univ_two, gap, m]
    ring
  have e1 := ev 1
  rw [one_smul, zero_add, sub_zero] at e1
  rw [show needle2.form = some (quadraticForm ![1, 0] radii2 rotated) from mkEll_form hr]
  rcases intersection_spec (good_form rotated_orthonormal hr) (c1 := 0) (c2 := (![1, 0] : Vec 2))
    (Or.inr (by rw [e1]; norm_num)) with ⟨_, h, _⟩ | ⟨t, e, _, _, _, hun⟩
  · have e0 := ev 0
    rw [zero_smul, add_zero] at e0
    rw [e0] at h
    norm_num [gap, m] at h
  · rw [e]
    have := hun (1 - gap) (by norm_num [gap, m]) (by norm_num [gap, m]) (by
      rw [ev, sub_sub_cancel, div_self (by norm_num [gap, m])]; norm_num)
    rw [this]

/-- Two needles which cross each other at (0, 4/3): the iteration reports convergence after one step, because the distance has
changed by less than 1e-6 relative to the distance of the centres, and the reported distance is larger than 0.99. -/
theorem C75_violated :
    (Region 0 radii1 globalAxes 1 ![0, 4 / 3] ∧ Region ![1, 0] radii2 rotated 1 ![0, 4 / 3]) ∧
    ∃ d, distance needle1 needle2 dflt 100 = .ok (d, 1, true) ∧ 99 / 100 < d := by
  have hr1 : ∀ d, radii1 d ≠ 0 := fun d => (radii1_pos d).ne'
  have hr2 : ∀ d, radii2 d ≠ 0 := fun d => (radii2_pos d).ne'
  refine ⟨⟨?_, ?_⟩, 1 - 1 / 10 ^ 7 - gap, ?_, by norm_num [gap, m]⟩
  · rw [region_iff global_orthonormal hr1]
    simp [radii1, globalAxes, dotProduct, Fin.sum_univ_two]
    norm_num
  · rw [region_iff rotated_orthonormal hr2]
    simp [radii2, rotated, dotProduct, Fin.sum_univ_two]
    norm_num
  · have hlen : length (![1, 0] - 0 : Vec 2) = 1 := by simp [length, dotProduct, Fin.sum_univ_two]
    have hd := distance_mk (c1 := 0) (c2 := ![1, 0]) (a1 := globalAxes) (a2 := rotated) hr1 hr2 dflt rfl
      (by rw [hlen]; norm_num [dflt]) 100
    have f1 : needle1.form = some (quadraticForm 0 radii1 globalAxes) := mkEll_form hr1
    have f2 : needle2.form = some (quadraticForm ![1, 0] radii2 rotated) := mkEll_form hr2
    have h1 := hit1
    have h2 := hit2
    rw [f1] at h1
    rw [f2] at h2
    rw [hlen] at hd
    show distance (mkEll 0 (some radii1) globalAxes) (mkEll ![1, 0] (some radii2) rotated) dflt 100 = _
    rw [hd, iterate, h1, Res.ok_bind]
    simp only [Bool.false_eq_true, if_false]
    rw [h2, Res.ok_bind]
    have hlt : ¬ (1 - gap < 1 / 10 ^ 7) := by norm_num [gap, m]
    simp only [hlt, decide_false, Bool.or_false, Bool.false_eq_true, if_false]
    have hl : length ((0 : Vec 2) + (1 / 10 ^ 7 : ℝ) • (![1, 0] - 0) - (0 + (1 - gap) • (![1, 0] - 0)))
        = 1 - 1 / 10 ^ 7 - gap := by
      have : ((0 : Vec 2) + (1 / 10 ^ 7 : ℝ) • (![1, 0] - 0) - (0 + (1 - gap) • (![1, 0] - 0)))
          = (-(1 - 1 / 10 ^ 7 - gap)) • ![1, 0] := by
        module
      rw [this, length, smul_dotProduct, dotProduct_smul]
      simp only [smul_eq_mul]
      have h1 : (![1, 0] : Vec 2) ⬝ᵥ ![1, 0] = 1 := by simp [dotProduct, Fin.sum_univ_two]
      rw [h1, mul_one, neg_mul_neg]
      exact Real.sqrt_mul_self (by norm_num [gap, m])
    rw [hl]
    have hc : ∀ (e : ℝ) (F1 F2 : Form 2) (x1 x2 : Vec 2), converged dflt e F1 F2 (1 - 1 / 10 ^ 7 - gap) 1 x1 x2 = true := by
      intro e F1 F2 x1 x2
      have : |(1 - 1 / 10 ^ 7 - gap) - 1| / 1 < 1 / 10 ^ 6 := by
        rw [div_one, abs_lt]
        constructor <;> norm_num [gap, m]
      simp only [converged, dflt, Bool.not_true, Bool.not_false, Bool.false_or, Bool.true_or, Bool.and_true]
      exact decide_eq_true ⟨one_ne_zero, this⟩
    rw [hc]
    simp

/-- two spheres of radii 1 and 2 at distance 5 -/
example : ∃ it, it ≤ 2 ∧ distance (mkEll 0 (some fun _ => 1) globalAxes) (mkEll ![3, 4] (some fun _ => 2) rotated) dflt 100
    = .ok (2, it, true) := by
  have hd : Real.sqrt (distSq (![3, 4] : Vec 2) 0) = 5 := by
    have : distSq (![3, 4] : Vec 2) 0 = 5 * 5 := by simp [distSq, dotProduct, Fin.sum_univ_two]; norm_num
    rw [this]
    exact Real.sqrt_mul_self (by norm_num)
  have := C75_spheres (c1 := (0 : Vec 2)) (c2 := ![3, 4]) global_orthonormal rotated_orthonormal (r1 := 1) (r2 := 2)
    (by norm_num) (by norm_num) dflt rfl rfl (by norm_num [dflt]) (by rw [hd]; norm_num [dflt]) (by rw [hd]; norm_num) 98
  rw [hd] at this
  norm_num at this
  exact this

end Ex75

namespace Ex76

open Ex74

/-- A cell at the centre of the particle which is larger than the ellipsoid is not enclosed: there is no outward direction, the
cell is skipped. -/
theorem C76_centred_violated :
    represent (mkEll 0 (some ![1, 1]) globalAxes) none [[⟨0, 4⟩]] = .ok (mkEll (0 : Vec 2) (some ![1, 1]) globalAxes) ∧
    ¬ Region 0 ![1, 1] globalAxes ((1 + 1 / 10 ^ 9) ^ 2) (![2, 0] : Vec 2) := by
  constructor
  · have : extent (0 : Vec 2) ⟨0, 4⟩ = none := by rw [extent, if_pos (by simp [length])]
    simp [represent, coverRemote, particleScale, scaleCell, mkEll, this]
  · have hr : ∀ d, (![1, 1] : Vec 2) d ≠ 0 := by intro d; fin_cases d <;> simp
    rw [region_iff global_orthonormal hr]
    simp [globalAxes, dotProduct, Fin.sum_univ_two]
    norm_num

/-- a cell at (3, 0) with diameter 2 is outside of the unit circle, which gets enlarged by the factor 4 -/
example : ∃ k : ℝ, 4 / (1 + 1 / 10 ^ 9) ≤ k ∧
    represent (mkEll 0 (some ![1, 1]) globalAxes) none [[], [⟨![3, 0], 2⟩]]
      = .ok (mkEll (0 : Vec 2) (some fun d => (![1, 1] : Vec 2) d * k) globalAxes) := by
  have hr : ∀ d, 0 < (![1, 1] : Vec 2) d := by intro d; fin_cases d <;> simp
  obtain ⟨k, hk, e, a, _⟩ := C76_encloses_partial (c := (0 : Vec 2)) global_orthonormal hr none [[], [⟨![3, 0], 2⟩]]
  refine ⟨k, ?_, e⟩
  have h1 := a [⟨![3, 0], 2⟩] (by simp) ⟨![3, 0], 2⟩ (by simp) (by
    intro h
    have := congrFun h 0
    simp at this)
  have hd : Real.sqrt (distSq (![3, 0] : Vec 2) 0) = 3 := by
    have : distSq (![3, 0] : Vec 2) 0 = 3 * 3 := by simp [distSq, dotProduct, Fin.sum_univ_two]
    rw [this]
    exact Real.sqrt_mul_self (by norm_num)
  have hk0 : 0 < k := by linarith
  rw [region_iff global_orthonormal (fun d => (mul_pos (hr d) hk0).ne')] at h1
  simp only [outward, hd] at h1
  simp [globalAxes, dotProduct, Fin.sum_univ_two] at h1
  have h2 : (4 / k) ^ 2 ≤ (1 + 1 / 10 ^ 9 : ℝ) ^ 2 := by
    norm_num at h1 ⊢
    exact h1
  have h3 := abs_le_of_sq_le_sq' h2 (by norm_num)
  rw [div_le_iff₀ (by norm_num)]
  have := h3.2
  rw [div_le_iff₀ hk0] at this
  linarith

end Ex76

namespace Ex77

/-- rotation about the third axis by a right angle (with half angle of cosine 3/5 the angle has cosine -7/25) -/
example : rotationViaQuaternions ![0, 0, 1] (3 / 5) (4 / 5) *ᵥ ![1, 0, 0] = ![-7 / 25, 24 / 25, 0] := by
  have := (C77_quaternions ![0, 0, 1] ![1, 0, 0] (c := 3 / 5) (s := 4 / 5)
    (by simp [dotProduct, Fin.sum_univ_three]) (by norm_num)).2.1 (by simp [dotProduct, Fin.sum_univ_three])
  rw [this]
  funext i
  fin_cases i <;> simp [cross_apply] <;> norm_num

end Ex77

end Verif.Props
