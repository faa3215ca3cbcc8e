import Verif.Spec.Pic
import Verif.Lemmas.Mirror
import Verif.Lemmas.Shift
import Verif.Lemmas.CurrentStep
import Verif.Props.Particle
import Verif.Props.Pusher

/-! One particle in a whole step. -/

set_option linter.unusedSimpArgs false
set_option linter.unusedVariables false
set_option linter.unusedSectionVars false

namespace Pico
namespace Pic

open SMB Yee

/-- Where and how a particle ends that has got its new velocity; the same in all domains. -/
noncomputable def landed (E : Env) (a : Part ℝ) (v : Vec3 ℝ) : Part ℝ :=
  let R : ℝ := E.p.nr * E.p.dr
  let Z : ℝ := E.p.nz * E.p.dz
  let x := landR E a v
  let z := landZ E a v
  let s := (a.posPhi + v.y * E.p.dt) / x
  let r' := Part.mirX true true E.p.dr R x
  let z' := Part.mirX true true E.p.dz Z z
  let vr := Part.mirV true true E.p.dr R x v.x
  { posR := r', posPhi := 0, posZ := z', oldR := a.posR, oldPhi := a.posPhi, oldZ := a.posZ
    velR := Real.sqrt (1 - s * s) * vr - s * v.y, velPhi := s * vr + Real.sqrt (1 - s * s) * v.y
    velZ := Part.mirV true true E.p.dz Z z v.z, weight := a.weight, sin := s
    cellR := Part.toSizeT ⌊r' / E.p.dr⌋, cellZ := Part.toSizeT ⌊z' / E.p.dz⌋, mark := a.mark, specieId := a.specieId }

theorem geom_eq {E : Env} (h : Chamber E) (i j : Nat) : E.geom i j =
    ⟨E.p.dr, E.p.dz, low E.p.nr E.domR i, low E.p.nz E.domZ j, hgt E.p.nr E.domR i, hgt E.p.nz E.domZ j⟩ := by
  unfold Env.geom
  rw [domCtx_eq E.p h.div]
  show (⟨_, _, low E.p.nr E.domR i + E.p.r0, low E.p.nz E.domZ j + 0, _, _⟩ : Geom ℝ) = _
  rw [h.r0]
  rfl

theorem walls_eq {E : Env} (h : Chamber E) (i j : Nat) : E.walls i j =
    ⟨decide (i = 0), decide (j = 0), decide (i = E.domR - 1), decide (j = E.domZ - 1)⟩ := by
  have w : (geoOf E.p E.domR E.domZ).walls = ⟨true, true, true, true⟩ := h.walls
  unfold Env.walls domWalls
  rw [w]
  dsimp only
  congr 1 <;> (split <;> rename_i k <;> (first | exact (decide_eq_true k).symm | exact (decide_eq_false k).symm))

/-- A wall of a domain acts as the wall of the chamber, seen from the domain. -/
theorem mir_dom {d x v : ℝ} {n lo h : Nat} (hd : 0 < d) (isLo isHi : Bool) (e0 : isLo = true → lo = 0) (e1 : isLo = false → 2 ≤ lo)
    (e2 : isHi = true → lo + h = n) (e3 : isHi = false → lo + h + 2 ≤ n) (h2 : 2 ≤ h) (x1 : (lo : ℝ) * d - d < x)
    (x2 : x < ((lo + h : Nat) : ℝ) * d + d) :
    Part.mirX isLo isHi d (h * d) (x - lo * d) + lo * d = Part.mirX true true d (n * d) x ∧
    Part.mirV isLo isHi d (h * d) (x - lo * d) v = Part.mirV true true d (n * d) x v := by
  push_cast at x2
  have hi : (h * d - d / 2 < x - lo * d && isHi) = (n * d - d / 2 < x && true) := by
    cases isHi with
    | true =>
      have e : (n : ℝ) = lo + h := by exact_mod_cast (e2 rfl).symm
      rw [Bool.and_true, Bool.and_true]
      refine decide_eq_decide.mpr ?_
      rw [e]
      constructor <;> intro k <;> linarith
    | false =>
      have e : (lo : ℝ) + h + 2 ≤ n := by exact_mod_cast e3 rfl
      rw [Bool.and_false, Bool.and_true]
      refine (decide_eq_false ?_).symm
      have := mul_le_mul_of_nonneg_right e hd.le
      intro k
      linarith
  have lo' : (x - lo * d < d / 2 && isLo) = (x < d / 2 && true) := by
    cases isLo with
    | true =>
      rw [e0 rfl]
      simp
    | false =>
      have e : (2 : ℝ) ≤ lo := by exact_mod_cast e1 rfl
      rw [Bool.and_false, Bool.and_true]
      refine (decide_eq_false ?_).symm
      have := mul_le_mul_of_nonneg_right e hd.le
      intro k
      linarith
  unfold Part.mirX Part.mirV
  rw [hi, lo']
  refine ⟨?_, rfl⟩
  by_cases c1 : (n * d - d / 2 < x && true) = true
  · rw [if_pos c1, if_pos c1]
    rw [← hi, Bool.and_eq_true] at c1
    have e : (n : ℝ) = lo + h := by exact_mod_cast (e2 c1.2).symm
    rw [e]
    ring
  · rw [if_neg c1, if_neg c1]
    by_cases c2 : (x < d / 2 && true) = true
    · rw [if_pos c2, if_pos c2]
      rw [← lo', Bool.and_eq_true] at c2
      have e : (lo : ℝ) = 0 := by exact_mod_cast e0 c2.2
      rw [e]
      ring
    · rw [if_neg c2, if_neg c2]
      ring

/-- A straight flight changes the radius by less than the path. -/
theorem radius_change {r u v s : ℝ} (hr : 0 ≤ r) (hs : 0 ≤ s) (h : u ^ 2 + v ^ 2 < s ^ 2) : |Real.sqrt ((r + u) ^ 2 + v ^ 2) - r| < s := by
  have hu : |u| < s := abs_lt_of_sq_lt_sq (by nlinarith [sq_nonneg v]) hs
  rw [abs_lt] at hu ⊢
  have hn : 0 ≤ (r + u) ^ 2 + v ^ 2 := by positivity
  have sq := Real.sq_sqrt hn
  have pos := Real.sqrt_nonneg ((r + u) ^ 2 + v ^ 2)
  have up : Real.sqrt ((r + u) ^ 2 + v ^ 2) < r + s := by
    rw [Real.sqrt_lt' (by linarith)]
    nlinarith
  refine ⟨?_, by linarith⟩
  by_cases k : r - s ≤ 0
  · by_contra c
    have c := not_lt.mp c
    have z : Real.sqrt ((r + u) ^ 2 + v ^ 2) = 0 := le_antisymm (by linarith) pos
    rw [z] at sq c
    have e : (r + u) ^ 2 = 0 := by nlinarith [sq_nonneg (r + u), sq_nonneg v]
    have : r + u = 0 := by
      by_contra q
      have := pow_pos (abs_pos.mpr q) 2
      rw [sq_abs] at this
      linarith
    linarith
  · have : r - s < Real.sqrt ((r + u) ^ 2 + v ^ 2) := by
      rw [Real.lt_sqrt (by linarith)]
      nlinarith [sq_nonneg v]
    linarith

section
variable {E : Env} (h : Chamber E) {a : Part ℝ} {v : Vec3 ℝ}
include h

theorem land_near {i j : Nat} (ha : InPlace E i j a) (hv : v.length2 < E.c ^ 2) :
    |landR E a v - a.posR| < E.p.dr ∧ |landZ E a v - a.posZ| < E.p.dz := by
  have dt : 0 < E.p.dt := h.good.dt
  have dr : 0 < E.p.dr := h.good.geo.dr
  have dz : 0 < E.p.dz := h.good.geo.dz
  unfold Vec3.length2 at hv
  have c := h.c
  have ct : 0 < E.c * E.p.dt := mul_pos c dt
  have sq : (v.x * E.p.dt) ^ 2 + (v.y * E.p.dt) ^ 2 + (v.z * E.p.dt) ^ 2 < (E.c * E.p.dt) ^ 2 := by
    have := mul_lt_mul_of_pos_right hv (pow_pos dt 2)
    nlinarith
  constructor
  · unfold landR
    rw [ha.phi, zero_add]
    refine lt_of_lt_of_le (radius_change (by linarith [ha.r1]) ct.le ?_) h.cr
    nlinarith [sq_nonneg (v.z * E.p.dt)]
  · unfold landZ
    rw [add_sub_cancel_left]
    refine lt_of_lt_of_le (abs_lt_of_sq_lt_sq ?_ ct.le) h.cz
    nlinarith [sq_nonneg (v.x * E.p.dt), sq_nonneg (v.y * E.p.dt)]

theorem landed_range {i j : Nat} (ha : InPlace E i j a) (hv : v.length2 < E.c ^ 2) :
    (E.p.dr / 2 ≤ (landed E a v).posR ∧ (landed E a v).posR ≤ E.p.nr * E.p.dr - E.p.dr / 2 ∧ |(landed E a v).posR - a.posR| < E.p.dr) ∧
    E.p.dz / 2 ≤ (landed E a v).posZ ∧ (landed E a v).posZ ≤ E.p.nz * E.p.dz - E.p.dz / 2 ∧ |(landed E a v).posZ - a.posZ| < E.p.dz := by
  have dr : 0 < E.p.dr := h.good.geo.dr
  have dz : 0 < E.p.dz := h.good.geo.dz
  obtain ⟨n1, n2⟩ := land_near h ha hv
  have m1 := abs_lt.mp n1
  have m2 := abs_lt.mp n2
  have e1 : (2 : ℝ) * E.p.dr ≤ E.p.nr * E.p.dr :=
    mul_le_mul_of_nonneg_right (by exact_mod_cast le_trans (by have := h.div.r1; omega) h.div.r2) dr.le
  have e2 : (2 : ℝ) * E.p.dz ≤ E.p.nz * E.p.dz :=
    mul_le_mul_of_nonneg_right (by exact_mod_cast le_trans (by have := h.div.z1; omega) h.div.z2) dz.le
  have q1 := ha.r1
  have q2 := ha.r2
  have q3 := ha.z1
  have q4 := ha.z2
  obtain ⟨a1, a2⟩ := Part.mirX_range (lo := true) (hi := true) dr e1 (x := landR E a v) (fun _ => by linarith) (fun _ => by linarith)
  obtain ⟨b1, b2⟩ := Part.mirX_range (lo := true) (hi := true) dz e2 (x := landZ E a v) (fun _ => by linarith) (fun _ => by linarith)
  exact ⟨⟨a1 rfl, a2 rfl, Part.mirX_near dr q1 q2 n1⟩, b1 rfl, b2 rfl, Part.mirX_near dz q3 q4 n2⟩

theorem floor_cells {x : ℝ} (hx : 0 ≤ x) (d : ℝ) (n : Nat) (hd : 0 < d) (hn : n < 2 ^ 31) (hu : x ≤ n * d - d / 2) :
    0 ≤ ⌊x / d⌋ ∧ ⌊x / d⌋ < n ∧ cellNumber x d = .ok ⌊x / d⌋ ∧ ((Part.toSizeT ⌊x / d⌋ : Nat) : Int) = ⌊x / d⌋ := by
  have k1 : 0 ≤ ⌊x / d⌋ := Int.floor_nonneg.mpr (div_nonneg hx hd.le)
  have k2 : ⌊x / d⌋ < n := by
    refine Int.floor_lt.mpr ((div_lt_iff₀ hd).mpr ?_)
    push_cast
    linarith
  refine ⟨k1, k2, VB.cellNumber_eq rfl (by omega) (by omega), ?_⟩
  unfold Part.toSizeT
  rw [Int.emod_eq_of_lt k1 (by omega)]
  omega

/-- A particle moves in its domain exactly as it would move in the chamber. -/
theorem advance_iff {i j : Nat} (hi : i < E.domR) (hj : j < E.domZ) (ha : InPlace E i j a) (hv : v.length2 < E.c ^ 2)
    (hc : Clear E i j a v) (b : Part ℝ) :
    Part.Advance E.p.dt (E.geom i j) (E.walls i j) (setVel a v) b ↔ b = landed E a v := by
  have dr : 0 < E.p.dr := h.good.geo.dr
  have dz : 0 < E.p.dz := h.good.geo.dz
  have gr : 0 + E.p.nr < 2 ^ 31 := by have : E.p.r0 + E.p.nr < 2 ^ 31 := h.good.geo.nr; rwa [h.r0] at this
  have gz : 0 + E.p.nz < 2 ^ 31 := h.good.geo.nz
  obtain ⟨n1, n2⟩ := land_near h ha hv
  have m1 := abs_lt.mp n1
  have m2 := abs_lt.mp n2
  obtain ⟨⟨b1, b2, b3, b4, b5, b6⟩, c1, c2, c3, c4, c5, c6⟩ := h.div.bounds hi hj
  have dom := ha.dom
  rw [geom_eq h] at dom ⊢
  obtain ⟨d1, d2, d3, d4⟩ := dom
  dsimp only at d1 d2 d3 d4
  have g1 : (2 : ℝ) * E.p.dr ≤ (hgt E.p.nr E.domR i : ℝ) * E.p.dr := mul_le_mul_of_nonneg_right (by exact_mod_cast b1) dr.le
  have g2 : (2 : ℝ) * E.p.dz ≤ (hgt E.p.nz E.domZ j : ℝ) * E.p.dz := mul_le_mul_of_nonneg_right (by exact_mod_cast c1) dz.le
  have wr := mir_dom (d := E.p.dr) (x := landR E a v) (v := v.x) (n := E.p.nr) (lo := low E.p.nr E.domR i) (h := hgt E.p.nr E.domR i) dr
    (decide (i = 0)) (decide (i = E.domR - 1)) (fun k => b3 (of_decide_eq_true k)) (fun k => b4 (of_decide_eq_false k))
    (fun k => b5 (of_decide_eq_true k)) (fun k => b6 (of_decide_eq_false k)) b1 (by linarith) (by linarith)
  have wz := mir_dom (d := E.p.dz) (x := landZ E a v) (v := v.z) (n := E.p.nz) (lo := low E.p.nz E.domZ j) (h := hgt E.p.nz E.domZ j) dz
    (decide (j = 0)) (decide (j = E.domZ - 1)) (fun k => c3 (of_decide_eq_true k)) (fun k => c4 (of_decide_eq_false k))
    (fun k => c5 (of_decide_eq_true k)) (fun k => c6 (of_decide_eq_false k)) c1 (by linarith) (by linarith)
  have r0 : landR E a v ≠ 0 := by
    intro k
    by_cases i0 : i = 0
    · refine hc.1 ?_
      rw [k, b3 i0]
      simp
    · have : (2 : ℝ) ≤ low E.p.nr E.domR i := by exact_mod_cast b4 i0
      have := mul_le_mul_of_nonneg_right this dr.le
      linarith
  -- the position after the flight
  let q : Part ℝ := { setVel a v with
    oldR := a.posR, oldPhi := a.posPhi, oldZ := a.posZ, posR := landR E a v, posPhi := 0, posZ := landZ E a v
    sin := (a.posPhi + v.y * E.p.dt) / landR E a v }
  have back : Part.backPos ((setVel a v).dumpOld.move E.p.dt) = .ok q := by
    have e : Real.sqrt (((setVel a v).dumpOld.move E.p.dt).posR * ((setVel a v).dumpOld.move E.p.dt).posR +
        ((setVel a v).dumpOld.move E.p.dt).posPhi * ((setVel a v).dumpOld.move E.p.dt).posPhi) = landR E a v := by
      rw [← pow_two, ← pow_two]
      rfl
    unfold Part.backPos
    dsimp only
    rw [e, if_neg r0]
    rfl
  have top : ∀ {dom i : Nat}, decide (i = dom - 1) = true → i = dom - 1 := fun k => of_decide_eq_true k
  have lo1 : ∀ k : decide (i = 0) = true, -(E.p.dr / 2) ≤ landR E a v - low E.p.nr E.domR i * E.p.dr := by
    intro k
    have e : (low E.p.nr E.domR i : ℝ) = 0 := by exact_mod_cast b3 (of_decide_eq_true k)
    rw [e]
    have := ha.r1
    linarith
  have lo2 : ∀ k : decide (j = 0) = true, -(E.p.dz / 2) ≤ landZ E a v - low E.p.nz E.domZ j * E.p.dz := by
    intro k
    have e : (low E.p.nz E.domZ j : ℝ) = 0 := by exact_mod_cast c3 (of_decide_eq_true k)
    rw [e]
    have := ha.z1
    linarith
  have hi1 : ∀ k : decide (i = E.domR - 1) = true, landR E a v - low E.p.nr E.domR i * E.p.dr ≤ hgt E.p.nr E.domR i * E.p.dr + E.p.dr / 2 := by
    intro k
    have e : ((low E.p.nr E.domR i + hgt E.p.nr E.domR i : Nat) : ℝ) = E.p.nr := by exact_mod_cast b5 (of_decide_eq_true k)
    push_cast at e
    have e := congrArg (· * E.p.dr) e
    have e : ((low E.p.nr E.domR i : ℝ) + hgt E.p.nr E.domR i) * E.p.dr = E.p.nr * E.p.dr := e
    have := ha.r2
    linarith
  have hi2 : ∀ k : decide (j = E.domZ - 1) = true, landZ E a v - low E.p.nz E.domZ j * E.p.dz ≤ hgt E.p.nz E.domZ j * E.p.dz + E.p.dz / 2 := by
    intro k
    have e : ((low E.p.nz E.domZ j + hgt E.p.nz E.domZ j : Nat) : ℝ) = E.p.nz := by exact_mod_cast c5 (of_decide_eq_true k)
    push_cast at e
    have e := congrArg (· * E.p.dz) e
    have e : ((low E.p.nz E.domZ j : ℝ) + hgt E.p.nz E.domZ j) * E.p.dz = E.p.nz * E.p.dz := e
    have := ha.z2
    linarith
  have refl := fun b' => Part.reflect_iff (K := ℝ) ⟨E.p.dr, E.p.dz, low E.p.nr E.domR i, low E.p.nz E.domZ j, hgt E.p.nr E.domR i, hgt E.p.nz E.domZ j⟩
    (E.walls i j) q b' dr dz g1 g2 (sub_ne_zero.mpr hc.1) (sub_ne_zero.mpr hc.2) (by rw [walls_eq h]; exact lo1) (by rw [walls_eq h]; exact lo2)
    (by rw [walls_eq h]; exact hi1) (by rw [walls_eq h]; exact hi2)
  rw [walls_eq h] at refl ⊢
  dsimp only [q] at refl
  dsimp only [setVel] at refl
  rw [wr.1, wr.2, wz.1, wz.2] at refl
  obtain ⟨⟨s1, s2, _⟩, s3, s4, _⟩ := landed_range h ha hv
  obtain ⟨_, _, f1, _⟩ := floor_cells h (le_trans (by linarith) s1) E.p.dr E.p.nr dr (by omega) s2
  obtain ⟨_, _, f2, _⟩ := floor_cells h (le_trans (by linarith) s3) E.p.dz E.p.nz dz (by omega) s4
  let fin : Part ℝ := { q with
    posR := Part.mirX true true E.p.dr (E.p.nr * E.p.dr) (landR E a v)
    posZ := Part.mirX true true E.p.dz (E.p.nz * E.p.dz) (landZ E a v)
    velR := Part.mirV true true E.p.dr (E.p.nr * E.p.dr) (landR E a v) v.x
    velZ := Part.mirV true true E.p.dz (E.p.nz * E.p.dz) (landZ E a v) v.z }
  have bind : Part.bindCell (K := ℝ) ⟨E.p.dr, E.p.dz, low E.p.nr E.domR i, low E.p.nz E.domZ j, hgt E.p.nr E.domR i, hgt E.p.nz E.domZ j⟩
      (Part.backVel fin) = .ok (landed E a v) := by
    unfold Part.bindCell Part.backVel
    dsimp only
    show (cellNumber (landed E a v).posR E.p.dr >>= fun rCell => cellNumber (landed E a v).posZ E.p.dz >>= fun zCell => _) = _
    rw [f1, Res.ok_bind, f2, Res.ok_bind]
    rfl
  constructor
  · rintro ⟨a1, b1', h1, h2, h3⟩
    obtain rfl := Res.ok.inj (h1.symm.trans back)
    have := (refl b1').mp h2
    have : b1' = fin := this
    rw [this, bind] at h3
    exact (Res.ok.inj h3).symm
  · rintro rfl
    exact ⟨q, fin, back, (refl _).mpr rfl, bind⟩

end

end Pic
end Pico
