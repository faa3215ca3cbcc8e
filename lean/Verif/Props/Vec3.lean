import Verif.Spec.Vec3
import Mathlib.Algebra.Order.Ring.Rat
import Mathlib.Tactic.Ring
import Mathlib.Tactic.NormNum
import Mathlib.Tactic.FieldSimp
import Mathlib.Tactic.Linarith
import Mathlib.Tactic.LinearCombination

/-! Properties of the 3-vector class. -/

set_option linter.unusedSectionVars false
set_option linter.unusedSimpArgs false

namespace Pico
namespace Vec3

open scoped Matrix

variable {K : Type _} [Field K]

theorem toK_inj {v w : Vec3 K} (h : v.toK = w.toK) : v = w := by
  have h0 := congrFun h 0
  have h1 := congrFun h 1
  have h2 := congrFun h 2
  cases v; cases w
  simp only [toK, Matrix.cons_val_zero, Matrix.cons_val_one, Matrix.cons_val_two, Matrix.head_cons, Matrix.tail_cons] at h0 h1 h2
  exact Vec3.mk.injEq .. |>.mpr ⟨h0, h1, h2⟩

/-- C66: the operators are the vector space operations of `K^3`, `dot` is its scalar product and `cross`
its cross product; so all laws of these hold. -/
theorem C66_refines (v w : Vec3 K) (s : K) :
    (add v w).toK = v.toK + w.toK ∧ (sub v w).toK = v.toK - w.toK ∧ (smul v s).toK = s • v.toK ∧
    (sdiv v s).toK = s⁻¹ • v.toK ∧ (zero : Vec3 K).toK = 0 ∧ (mulV v w).toK = v.toK * w.toK ∧
    (addS v s).toK = v.toK + (fun _ => s) ∧
    dot v w = v.toK ⬝ᵥ w.toK ∧ (cross v w).1.toK = v.toK ⨯₃ w.toK ∧ length2 v = v.toK ⬝ᵥ v.toK := by
  refine ⟨?_, ?_, ?_, ?_, ?_, ?_, ?_, ?_, ?_, ?_⟩
  · funext i; fin_cases i <;> rfl
  · funext i; fin_cases i <;> rfl
  · funext i; fin_cases i <;> simp [toK, smul, mul_comm]
  · funext i; fin_cases i <;> simp [toK, sdiv, div_eq_mul_inv, mul_comm]
  · funext i; fin_cases i <;> rfl
  · funext i; fin_cases i <;> rfl
  · funext i; fin_cases i <;> rfl
  · simp [toK, dot, dotProduct, Fin.sum_univ_three]
  · simp [toK, cross, crossProduct]
  · simp [toK, length2, dotProduct, Fin.sum_univ_three]

/-- C66: vector space laws. -/
theorem C66_space (u v w : Vec3 K) (s t : K) :
    add v w = add w v ∧ add u (add v w) = add (add u v) w ∧ add v zero = v ∧ add (sub v w) w = v ∧
    smul (add v w) s = add (smul v s) (smul w s) ∧ smul v (s + t) = add (smul v s) (smul v t) ∧
    smul (smul v s) t = smul v (s * t) ∧ smul v 1 = v ∧ (s ≠ 0 → smul (sdiv v s) s = v) := by
  have R := @C66_refines K _
  refine ⟨?_, ?_, ?_, ?_, ?_, ?_, ?_, ?_, fun h => ?_⟩ <;> apply toK_inj <;>
    simp only [(R _ _ s).1, (R _ w s).2.1, (R _ w _).2.2.1, (R _ w _).2.2.2.1, (R v w s).2.2.2.2.1]
  · exact add_comm _ _
  · exact (add_assoc _ _ _).symm
  · exact add_zero _
  · exact sub_add_cancel _ _
  · exact smul_add _ _ _
  · exact add_smul _ _ _
  · rw [smul_smul, mul_comm]
  · exact one_smul _ _
  · rw [smul_smul, mul_inv_cancel₀ h, one_smul]

/-- C66: the cross product is orthogonal to both factors, antisymmetric, and satisfies Lagrange's identity. -/
theorem C66_cross (v w : Vec3 K) :
    dot v (cross v w).1 = 0 ∧ dot w (cross v w).1 = 0 ∧ (cross v w).1 = smul (cross w v).1 (-1) ∧
    (cross v v).1 = zero ∧ length2 (cross v w).1 + dot v w ^ 2 = length2 v * length2 w := by
  refine ⟨?_, ?_, ?_, ?_, ?_⟩
  · simp only [dot, cross]; ring
  · simp only [dot, cross]; ring
  · simp only [smul, cross]; congr 1 <;> ring
  · simp only [zero, cross]; congr 1 <;> ring
  · simp only [length2, dot, cross]; ring

/-- C66: equality operators decide equality of all components. -/
theorem C66_eq [DecidableEq K] (v w : Vec3 K) : (eqv v w = true ↔ v = w) ∧ (nev v w = !eqv v w) := by
  cases v; cases w
  simp [eqv, nev, Vec3.mk.injEq, and_assoc, bne, Bool.or_assoc, Bool.and_assoc]

/-- C66: compound assignment with a number that does not live in the vector applies the operation to every
component. -/
theorem C66_assign (f : K → K → K) (v : Vec3 K) (a : K) :
    scalarAssign f v (.val a) = .ok ⟨f v.x a, f v.y a, f v.z a⟩ := rfl

/-- C66: reading a component that was written gives it back and does not change the others; other indices
are undefined behaviour. -/
theorem C66_index (v : Vec3 K) (i : Int) (a : K) :
    (0 ≤ i ∧ i < 3 → ∃ w, v.put i a = .ok w ∧ w.get i = .ok a ∧ ∀ j, j ≠ i → w.get j = v.get j) ∧
    (¬ (0 ≤ i ∧ i < 3) → v.put i a = .ub ∧ v.get i = .ub) := by
  constructor
  · intro h
    have : i = 0 ∨ i = 1 ∨ i = 2 := by omega
    rcases this with rfl | rfl | rfl
    · exact ⟨_, rfl, rfl, fun j hj => by simp [get, hj]⟩
    · exact ⟨_, rfl, rfl, fun j hj => by simp [get, hj]⟩
    · exact ⟨_, rfl, rfl, fun j hj => by simp [get, hj]⟩
  · intro h
    have h0 : i ≠ 0 := by omega
    have h1 : i ≠ 1 := by omega
    have h2 : i ≠ 2 := by omega
    simp [put, get, h0, h1, h2]

/-- C52 fails for compound assignment with a component of the vector itself: `v /= v[0]` leaves the
second and the third component as they were, for every vector with `v[0] ≠ 0`. -/
theorem C52_alias_fails (v : Vec3 K) (h : v.x ≠ 0) :
    scalarAssign (· / ·) v (.own 0) = .ok ⟨1, v.y, v.z⟩ := by
  have e : scalarAssign (· / ·) v (.own 0) = .ok ⟨v.x / v.x, v.y / (v.x / v.x), v.z / (v.x / v.x)⟩ := rfl
  rw [e, div_self h, div_one, div_one]

section order
variable [LinearOrder K] [IsStrictOrderedRing K]

theorem length2_pos {v : Vec3 K} (h : v ≠ zero) : 0 < length2 v := by
  cases v with | mk x y z =>
  unfold length2
  dsimp only
  by_contra hc
  have hx := mul_self_nonneg x
  have hy := mul_self_nonneg y
  have hz := mul_self_nonneg z
  have e1 : x = 0 := mul_self_eq_zero.mp (by linarith)
  have e2 : y = 0 := mul_self_eq_zero.mp (by linarith)
  have e3 : z = 0 := mul_self_eq_zero.mp (by linarith)
  exact h (by rw [e1, e2, e3]; rfl)

/-- C52 fails: `v.cross(w)` overwrites `v`, for every vector other than zero. -/
theorem C52_cross_mutates (v w : Vec3 K) (h : v ≠ zero) : (cross v w).2 ≠ v := by
  intro e
  have o := (C66_cross v w).1
  have e' : (cross v w).1 = v := e
  rw [e'] at o
  have := length2_pos h
  unfold length2 at this
  unfold dot at o
  linarith

/-- C52 fails: `v.abs()` overwrites every vector that has a negative component. -/
theorem C52_abs_mutates (v : Vec3 K) (h : v.x < 0 ∨ v.y < 0 ∨ v.z < 0) : (abs v).2 ≠ v := by
  intro e
  cases v with | mk x y z =>
  simp only [abs, Vec3.mk.injEq] at e
  dsimp only at h
  rcases h with h | h | h
  · have := abs_nonneg x; linarith [e.1]
  · have := abs_nonneg y; linarith [e.2.1]
  · have := abs_nonneg z; linarith [e.2.2]

/-- C52 fails: `v.pow(2)` overwrites every vector that has a component other than 0 and 1. -/
theorem C52_pow_mutates (v : Vec3 K) (h : v.x ≠ 0 ∧ v.x ≠ 1) : (powN v 2).2 ≠ v := by
  intro e
  have e : v.x ^ 2 = v.x := congrArg Vec3.x e
  have : v.x * (v.x - 1) = 0 := by linear_combination e
  rcases mul_eq_zero.mp this with c | c
  · exact h.1 c
  · exact h.2 (by linarith)
end order

/-- C66: the length is the Euclidean one. -/
theorem C66_length (v : Vec3 ℝ) : 0 ≤ v.length ∧ v.length ^ 2 = v.toK ⬝ᵥ v.toK := by
  refine ⟨Real.sqrt_nonneg _, ?_⟩
  rw [length, Real.sq_sqrt (by have := mul_self_nonneg v.x; have := mul_self_nonneg v.y; have := mul_self_nonneg v.z; unfold length2; linarith)]
  exact (C66_refines v v 0).2.2.2.2.2.2.2.2.2

/-! ### Concrete cases -/

example : (cross (⟨1, 2, 3⟩ : Vec3 ℚ) ⟨4, 5, 6⟩).1 = ⟨-3, 6, -3⟩ := by decide +kernel
example : scalarAssign (· / ·) (⟨2, 4, 6⟩ : Vec3 ℚ) (.own 0) = .ok ⟨1, 4, 6⟩ := C52_alias_fails _ (by norm_num)
example : scalarAssign (· / ·) (⟨2, 4, 6⟩ : Vec3 ℚ) (.val 2) = .ok ⟨1, 2, 3⟩ := by decide +kernel
example : (cross (⟨1, 2, 3⟩ : Vec3 ℚ) ⟨4, 5, 6⟩).2 ≠ ⟨1, 2, 3⟩ :=
  C52_cross_mutates _ _ (by decide +kernel)
example : (abs (⟨1, -2, 3⟩ : Vec3 ℚ)).2 ≠ ⟨1, -2, 3⟩ := C52_abs_mutates _ (by norm_num)
example : (powN (⟨2, 1, 0⟩ : Vec3 ℚ) 2).2 ≠ ⟨2, 1, 0⟩ := C52_pow_mutates _ (by norm_num)
example : sdiv (⟨2, 4, 6⟩ : Vec3 ℚ) 2 = ⟨1, 2, 3⟩ := by decide +kernel

end Vec3
end Pico
