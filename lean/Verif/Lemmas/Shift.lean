import Verif.Model.CurrentStep
import Verif.Lemmas.CurrentZigZag
import Verif.Props.Current

/-! Depositions in a part of an area: the same operations, with shifted indices. -/

set_option linter.unusedSimpArgs false
set_option linter.unusedVariables false
set_option linter.unusedSectionVars false

namespace Pico
namespace VB

open Yee

variable {K : Type _} [Field K] [LinearOrder K] [IsStrictOrderedRing K] [FloorRing K]

/-- The same operation at another place. -/
def Op.shift (a b : Int) : Op K → Op K
  | .inc c i k v => .inc c (i - a) (k - b) v
  | .set c i k v => .set c (i - a) (k - b) v

theorem shift_val (a b : Int) (o : Op K) (c : Comp) (i k : Int) : (o.shift a b).val c i k = o.val c (i + a) (k + b) := by
  cases o with
  | set => rfl
  | inc c' u v w =>
    unfold Op.shift Op.val
    dsimp only
    have : (c = c' ∧ i = u - a ∧ k = v - b) ↔ (c = c' ∧ i + a = u ∧ k + b = v) := by
      constructor <;> rintro ⟨h1, h2, h3⟩ <;> exact ⟨h1, by omega, by omega⟩
    rw [if_congr this rfl rfl]

theorem shift_tot (a b : Int) (l : List (Op K)) (c : Comp) (i k : Int) :
    tot (l.map (Op.shift a b)) c i k = tot l c (i + a) (k + b) := by
  unfold tot
  rw [List.map_map]
  congr 1
  refine List.map_congr_left fun o _ => shift_val a b o c i k

/-- The context of a part of the area that starts at `(a, b)` of it. -/
def Ctx.part (x : Ctx K) (a b nr nz : Nat) : Ctx K :=
  { x with g := ⟨x.g.dr, x.g.dz, a + x.g.r0, b + x.g.z0, nr, nz⟩ }

variable (x : Ctx K) (a b nr nz : Nat)

theorem simple_part (rN zN rO zO : K) (i k : Int) (q : K) :
    simple (x.part a b nr nz) rN zN rO zO i k q = (simple x rN zN rO zO i k q).map (Op.shift a b) := by
  unfold simple
  by_cases h : |rN - rO| < x.mnzl ∨ |zN - zO| < x.mnzl
  · rw [if_pos h, if_pos (show |rN - rO| < (x.part a b nr nz).mnzl ∨ |zN - zO| < (x.part a b nr nz).mnzl from h)]
    rfl
  · rw [if_neg h, if_neg (show ¬ (|rN - rO| < (x.part a b nr nz).mnzl ∨ |zN - zO| < (x.part a b nr nz).mnzl) from h)]
    simp only [List.map_cons, List.map_nil, Op.shift, Ctx.part]
    push_cast
    have e1 : i - ((a : Int) + x.g.r0) = i - x.g.r0 - a := by omega
    have e2 : k - ((b : Int) + x.g.z0) = k - x.g.z0 - b := by omega
    have e3 : i - (x.g.r0 : Int) - a + 1 = i - x.g.r0 + 1 - a := by omega
    have e4 : k - (x.g.z0 : Int) - b + 1 = k - x.g.z0 + 1 - b := by omega
    rw [e1, e2, e3, e4]
    rfl

theorem crossR_part (p : Part K) (i k : Int) : crossR (x.part a b nr nz) p i k = (crossR x p i k).map (Op.shift a b) := by
  unfold crossR
  simp only [simple_part, apply_ite (List.map (Op.shift a b)), List.map_append]
  rfl

theorem crossZ_part (p : Part K) (i k : Int) : crossZ (x.part a b nr nz) p i k = (crossZ x p i k).map (Op.shift a b) := by
  unfold crossZ
  simp only [simple_part, apply_ite (List.map (Op.shift a b)), List.map_append]
  rfl

theorem crossUpRight_part (p : Part K) (i k : Int) :
    crossUpRight (x.part a b nr nz) p i k = (crossUpRight x p i k).map (Op.shift a b) := by
  unfold crossUpRight
  simp only [simple_part, apply_ite (List.map (Op.shift a b)), List.map_append]
  rfl

theorem crossUpLeft_part (p : Part K) (i k : Int) :
    crossUpLeft (x.part a b nr nz) p i k = (crossUpLeft x p i k).map (Op.shift a b) := by
  unfold crossUpLeft
  simp only [simple_part, apply_ite (List.map (Op.shift a b)), List.map_append]
  rfl

theorem crossDownRight_part (p : Part K) (i k : Int) :
    crossDownRight (x.part a b nr nz) p i k = (crossDownRight x p i k).map (Op.shift a b) := by
  unfold crossDownRight
  simp only [simple_part, apply_ite (List.map (Op.shift a b)), List.map_append]
  rfl

theorem crossDownLeft_part (p : Part K) (i k : Int) :
    crossDownLeft (x.part a b nr nz) p i k = (crossDownLeft x p i k).map (Op.shift a b) := by
  unfold crossDownLeft
  simp only [simple_part, apply_ite (List.map (Op.shift a b)), List.map_append]
  rfl

theorem switchOps_part (p : Part K) (iN kN iO kO : Int) :
    switchOps (x.part a b nr nz) p iN kN iO kO = (switchOps x p iN kN iO kO).map (Op.shift a b) := by
  unfold switchOps
  simp only [simple_part, crossR_part, crossZ_part, crossUpRight_part, crossUpLeft_part, crossDownRight_part, crossDownLeft_part,
    apply_ite (List.map (Op.shift a b)), List.map_nil]

theorem strictRadial_part (rN zN rO : K) (iN iO kN : Int) (q : K) :
    strictRadial (x.part a b nr nz) rN zN rO iN iO kN q = (strictRadial x rN zN rO iN iO kN q).map (Op.shift a b) := by
  unfold strictRadial
  dsimp only
  have e1 : iN - (((x.part a b nr nz).g.r0 : Nat) : Int) = iN - x.g.r0 - a := by
    show iN - ((a + x.g.r0 : Nat) : Int) = _
    omega
  have e2 : kN - (((x.part a b nr nz).g.z0 : Nat) : Int) = kN - x.g.z0 - b := by
    show kN - ((b + x.g.z0 : Nat) : Int) = _
    omega
  have e3 : kN - (x.g.z0 : Int) - b + 1 = kN - x.g.z0 + 1 - b := by omega
  have e4 : iN - (x.g.r0 : Int) - a + 1 = iN - x.g.r0 + 1 - a := by omega
  have e5 : iN - (x.g.r0 : Int) - a - 1 = iN - x.g.r0 - 1 - a := by omega
  rw [e1, e2, e3, e4, e5]
  simp only [apply_ite (List.map (Op.shift a b)), List.map_cons, List.map_nil, Op.shift]
  rfl

theorem strictAxial_part (rN zN zO : K) (iN kN kO : Int) (q : K) :
    strictAxial (x.part a b nr nz) rN zN zO iN kN kO q = (strictAxial x rN zN zO iN kN kO q).map (Op.shift a b) := by
  unfold strictAxial
  dsimp only
  have e1 : iN - (((x.part a b nr nz).g.r0 : Nat) : Int) = iN - x.g.r0 - a := by
    show iN - ((a + x.g.r0 : Nat) : Int) = _
    omega
  have e2 : kN - (((x.part a b nr nz).g.z0 : Nat) : Int) = kN - x.g.z0 - b := by
    show kN - ((b + x.g.z0 : Nat) : Int) = _
    omega
  have e3 : kN - (x.g.z0 : Int) - b + 1 = kN - x.g.z0 + 1 - b := by omega
  have e4 : iN - (x.g.r0 : Int) - a + 1 = iN - x.g.r0 + 1 - a := by omega
  have e5 : kN - (x.g.z0 : Int) - b - 1 = kN - x.g.z0 - 1 - b := by omega
  rw [e1, e2, e3, e4, e5]
  simp only [apply_ite (List.map (Op.shift a b)), List.map_append, List.map_cons, List.map_nil, Op.shift]
  rfl

theorem azimuthalOps_part (p : Part K) : azimuthalOps (x.part a b nr nz) p = (azimuthalOps x p).map (Op.shift a b) := by
  unfold azimuthalOps
  dsimp only
  have e1 : p.cellR - (((x.part a b nr nz).g.r0 : Nat) : Int) = p.cellR - x.g.r0 - a := by
    show p.cellR - ((a + x.g.r0 : Nat) : Int) = _
    omega
  have e2 : p.cellZ - (((x.part a b nr nz).g.z0 : Nat) : Int) = p.cellZ - x.g.z0 - b := by
    show p.cellZ - ((b + x.g.z0 : Nat) : Int) = _
    omega
  have e3 : p.cellZ - (x.g.z0 : Int) - b + 1 = p.cellZ - x.g.z0 + 1 - b := by omega
  have e4 : p.cellR - (x.g.r0 : Int) - a + 1 = p.cellR - x.g.r0 + 1 - a := by omega
  rw [e1, e2, e3, e4]
  rfl

/-- Motion of a particle as a domain sees it. -/
theorem rzOps_part (p : Part K) {ops : List (Op K)} (h : rzOps x p = .ok ops) :
    rzOps (x.part a b nr nz) p = .ok (ops.map (Op.shift a b)) := by
  unfold rzOps at h ⊢
  show (cellNumber p.rOld x.g.dr >>= _) = _
  cases e1 : cellNumber p.rOld x.g.dr with
  | fatal => rw [e1] at h; cases h
  | ub => rw [e1] at h; cases h
  | ok iO =>
  rw [e1, Res.ok_bind] at h
  rw [Res.ok_bind]
  show (cellNumber p.zOld x.g.dz >>= _) = _
  cases e2 : cellNumber p.zOld x.g.dz with
  | fatal => rw [e2] at h; cases h
  | ub => rw [e2] at h; cases h
  | ok kO =>
  rw [e2, Res.ok_bind] at h
  rw [Res.ok_bind]
  dsimp only at h ⊢
  have d1 : (x.part a b nr nz).g.dr = x.g.dr := rfl
  have d2 : (x.part a b nr nz).g.dz = x.g.dz := rfl
  have d3 : (x.part a b nr nz).mnzl = x.mnzl := rfl
  rw [d1, d2, d3]
  generalize (if p.rOld = ((iO : K) + 1) * x.g.dr then p.cellR else iO) = jO at h ⊢
  generalize (if p.zOld = ((kO : K) + 1) * x.g.dz then p.cellZ else kO) = lO at h ⊢
  generalize (if p.r = ((p.cellR : K) + 1) * x.g.dr then jO else p.cellR) = jN at h ⊢
  generalize (if p.z = ((p.cellZ : K) + 1) * x.g.dz then lO else p.cellZ) = lN at h ⊢
  split at h
  · rename_i k
    rw [if_pos k]
    obtain rfl := Res.ok.inj h
    rfl
  · rename_i k
    rw [if_neg k]
    split at h
    · rename_i k2
      rw [if_pos k2]
      unfold strictMotion at h ⊢
      rw [d1, d2, d3]
      cases f1 : cellNumber p.r x.g.dr with
      | fatal => rw [f1] at h; cases h
      | ub => rw [f1] at h; cases h
      | ok i1 =>
      rw [f1, Res.ok_bind] at h
      rw [Res.ok_bind]
      cases f2 : cellNumber p.z x.g.dz with
      | fatal => rw [f2] at h; cases h
      | ub => rw [f2] at h; cases h
      | ok i2 =>
      rw [f2, Res.ok_bind, e1, Res.ok_bind, e2, Res.ok_bind] at h
      rw [Res.ok_bind, e1, Res.ok_bind, e2, Res.ok_bind]
      obtain rfl := Res.ok.inj h
      simp only [strictAxial_part, strictRadial_part, apply_ite (List.map (Op.shift a b)), List.map_nil]
    · rename_i k2
      rw [if_neg k2]
      obtain rfl := Res.ok.inj h
      rw [switchOps_part]

theorem cellOps_part (p : Part K) (iN iO kN kO iM : Int) :
    ZigZag.cellOps (x.part a b nr nz) p iN iO kN kO iM = (ZigZag.cellOps x p iN iO kN kO iM).map (Op.shift a b) := by
  unfold ZigZag.cellOps
  dsimp only
  have f1 : ∀ i : Int, i - (((x.part a b nr nz).g.r0 : Nat) : Int) = i - x.g.r0 - a := fun i => by
    show i - ((a + x.g.r0 : Nat) : Int) = _
    omega
  have f2 : ∀ k : Int, k - (((x.part a b nr nz).g.z0 : Nat) : Int) = k - x.g.z0 - b := fun k => by
    show k - ((b + x.g.z0 : Nat) : Int) = _
    omega
  have f3 : ∀ k : Int, k - (x.g.z0 : Int) - b + 1 = k - x.g.z0 + 1 - b := fun k => by omega
  have f4 : ∀ i : Int, i - (x.g.r0 : Int) - a + 1 = i - x.g.r0 + 1 - a := fun i => by omega
  rw [f1, f1, f2, f2, f3, f3, f4, f4]
  rfl

end VB
end Pico
