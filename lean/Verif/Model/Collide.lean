import Verif.Model.Pairing
import Verif.Model.Rel
import Mathlib.Analysis.SpecialFunctions.Trigonometric.Arctan
import Mathlib.Analysis.SpecialFunctions.Log.Basic

/-!
# Binary collisions  (`/repo/src/collisions/collisionsTA77S.cpp`, `collisionsSK98.cpp`, `collisionsP12.cpp`)

Exact arithmetic in `ℝ`.  An operation that yields NaN (zero divided by zero, root of a negative number) makes the new
velocities NaN: outcome `ub`.  `c` is `LIGHT_VEL`, `mnzl` is `MNZL`.

The deflection `delta` (resp. `s12`) is a parameter that ranges over all real numbers: charges, densities, the time step and
the Coulomb logarithm have an effect only through the standard deviation of the normal random number `delta` (resp. through
`s12`).  The Coulomb logarithm is at least 2 (`/repo/src/phys/plasma.cpp:42-52`), so the test
`/repo/src/collisions/collisionsSK98.cpp:153` never succeeds.
-/

namespace Pico
namespace Coll

/-- `P_VEL_R`, `P_VEL_PHI`, `P_VEL_Z` of a particle, `/repo/include/specieP.hpp`. -/
def vel {K : Type _} (p : Part K) : Vec3 K := ⟨p.velR, p.velPhi, p.velZ⟩
def setVel {K : Type _} (p : Part K) (v : Vec3 K) : Part K := { p with velR := v.x, velPhi := v.y, velZ := v.z }

/-! ### TA77S -/

/-- Change of the relative velocity `u` by the angles with the given sines and cosines,
`/repo/src/collisions/collisionsTA77S.cpp:140-178`. -/
noncomputable def taDelta (u : Vec3 ℝ) (sT cT sP cP : ℝ) : Vec3 ℝ :=
  let l := Real.sqrt (u.x ^ 2 + u.y ^ 2 + u.z ^ 2)
  let up := Real.sqrt (u.x ^ 2 + u.y ^ 2)
  if up = 0 then ⟨l * sT * cP, l * sT * sP, -l * (1 - cT)⟩
  else
    ⟨(u.x / up) * u.z * sT * cP - (u.y / up) * l * sT * sP - u.x * (1 - cT),
      (u.y / up) * u.z * sT * cP + (u.x / up) * l * sT * sP - u.y * (1 - cT),
      up * sT * cP - u.z * (1 - cT)⟩

/-- Sine and cosine of the deflection, `/repo/src/collisions/collisionsTA77S.cpp:115-116`. -/
noncomputable def sinTheta (delta : ℝ) : ℝ := 2 * delta / (1 + delta ^ 2)
noncomputable def cosTheta (delta : ℝ) : ℝ := 1 - 2 * delta ^ 2 / (1 + delta ^ 2)

/-- The new velocities of the particles `a` (smaller weight) and `b`,
`/repo/src/collisions/collisionsTA77S.cpp:84-186`; `w` is the ratio of the weights. -/
noncomputable def taCore (pi ma mb w delta phi dzeta : ℝ) (va vb : Vec3 ℝ) : Vec3 ℝ × Vec3 ℝ :=
  let mab := ma * mb / (ma + mb)
  let u := va.sub vb
  if Real.sqrt (u.x ^ 2 + u.y ^ 2 + u.z ^ 2) = 0 then (va, vb)
  else
    let sT := sinTheta delta
    let cT := cosTheta delta
    let s2 := Real.sqrt (w * sT ^ 2 + w * (1 - w) * (1 - cT) ^ 2)
    let c2 := 1 - w * (1 - cT)
    let s2 := if s2 * sT < 0 then -s2 else s2
    let phi2 := phi + 2 * pi * (1 - Real.sqrt w) * (1 - dzeta)
    let d := taDelta u sT cT (Real.sin phi) (Real.cos phi)
    let d2 := taDelta u s2 c2 (Real.sin phi2) (Real.cos phi2)
    (va.add (d.smul (mab / ma)), vb.add (d2.smul (mab / mb)))

/-- `CollisionsTA77S::collide_single`, `/repo/src/collisions/collisionsTA77S.cpp:31-220`.  A weight or mass of zero is `ub`;
the message of lines 210-219 has no effect. -/
noncomputable def collideTA (pi ma mb delta phi dzeta : ℝ) (pa pb : Part ℝ) : Res (Part ℝ × Part ℝ) :=
  if pb.weight = 0 ∨ pa.weight = 0 ∨ ma = 0 ∨ mb = 0 ∨ ma + mb = 0 then .ub
  else
    let w := pa.weight / pb.weight
    if w ≤ 1 then
      let r := taCore pi ma mb w delta phi dzeta (vel pa) (vel pb)
      .ok (setVel pa r.1, setVel pb r.2)
    else
      let r := taCore pi mb ma (1 / w) delta phi dzeta (vel pb) (vel pa)
      .ok (setVel pa r.2, setVel pb r.1)

/-! ### Correction of the velocities -/

/-- Loop that sums one quantity over the particles of a cell. -/
def wsum (f : Part ℝ → ℝ) (l : List (Part ℝ)) : ℝ := l.foldl (fun s p => s + f p) 0

/-- The stored totals of a species in a cell: `amount_tot`, `moment_tot`, `energy_tot`. -/
structure Totals where
  amount : ℝ
  moment : Vec3 ℝ
  energy : ℝ

/-- `collect_weighted_params_tot_grid` for one species and cell, `/repo/src/collisions.cpp:171-225` (the grids are zero
before, `/repo/src/collisions.cpp:63-76`). -/
noncomputable def collectTotals (mass : ℝ) (l : List (Part ℝ)) : Totals :=
  ⟨wsum (fun p => p.weight) l,
    ⟨wsum (fun p => p.weight * mass * p.velR) l, wsum (fun p => p.weight * mass * p.velPhi) l, wsum (fun p => p.weight * mass * p.velZ) l⟩,
    wsum (fun p => p.weight * mass * (p.velR * p.velR + p.velPhi * p.velPhi + p.velZ * p.velZ) / 2) l⟩

/-- `correct_velocities` for one species and cell, `/repo/src/collisions/collisionsTA77S.cpp:419-566`.  `isnormal(alpha)`
fails for zero and for a division by zero (infinity or NaN). -/
noncomputable def correct (mass : ℝ) (t : Totals) (l : List (Part ℝ)) : List (Part ℝ) :=
  let mr := wsum (fun p => mass * p.weight * p.velR) l
  let mphi := wsum (fun p => mass * p.weight * p.velPhi) l
  let mz := wsum (fun p => mass * p.weight * p.velZ) l
  let eNew := wsum (fun p => mass * p.weight * (p.velR * p.velR + p.velPhi * p.velPhi + p.velZ * p.velZ) / 2) l
  let massTot := t.amount * mass
  let dV : Vec3 ℝ := ⟨(mr - t.moment.x) / massTot, (mphi - t.moment.y) / massTot, (mz - t.moment.z) / massTot⟩
  let v0 : Vec3 ℝ := ⟨t.moment.x / massTot, t.moment.y / massTot, t.moment.z / massTot⟩
  let dE := eNew - t.energy
  let num := t.energy - massTot * (v0.x * v0.x + v0.y * v0.y + v0.z * v0.z) / 2
  let den := t.energy + dE - massTot * ((v0.x + dV.x) ^ 2 + (v0.y + dV.y) ^ 2 + (v0.z + dV.z) ^ 2) / 2
  if massTot = 0 ∨ den = 0 ∨ num = 0 then l
  else
    let alpha := num / den
    let alpha := if alpha < 0 then -alpha else alpha
    let alpha := if alpha = 0 then 1 else alpha
    let alpha := Real.sqrt alpha
    l.map fun p => setVel p ⟨v0.x + alpha * (p.velR - v0.x - dV.x), v0.y + alpha * (p.velPhi - v0.y - dV.y),
      v0.z + alpha * (p.velZ - v0.z - dV.z)⟩

/-! ### The relativistic models -/

/-- Momenta in the laboratory and in the centre of mass frame. -/
structure Frame where
  beta : Vec3 ℝ
  gamma : ℝ
  p0a : ℝ
  p0b : ℝ
  paCm : Vec3 ℝ
  p0aCm : ℝ
  p0bCm : ℝ

/-- `/repo/src/collisions/collisionsSK98.cpp:89-115`, `/repo/src/collisions/collisionsP12.cpp:93-122`. -/
noncomputable def comFrame (c ma mb : ℝ) (va vb : Vec3 ℝ) : Res Frame :=
  Rel.momentum0 c ma va >>= fun p0a => Rel.momentum0 c mb vb >>= fun p0b =>
  Rel.momentum c ma va >>= fun pa => Rel.momentum c mb vb >>= fun pb =>
  if p0a + p0b = 0 then .ub
  else
    let beta := (pa.add pb).sdiv (p0a + p0b)
    Rel.lorenzFactor c (beta.length2 * (c * c)) >>= fun gamma =>
    if beta.length2 = 0 then .ub
    else .ok ⟨beta, gamma, p0a, p0b,
      (pa.add (((beta.smul (beta.dot pa)).smul (gamma - 1)).sdiv beta.length2)).sub ((beta.smul gamma).smul p0a),
      gamma * (p0a - beta.dot pa), gamma * (p0b - beta.dot pb)⟩

/-- `p_b_cm`, `/repo/src/collisions/collisionsSK98.cpp:117-119`. -/
def neg3 (v : Vec3 ℝ) : Vec3 ℝ := ⟨-v.x, -v.y, -v.z⟩

/-- `v_rel_abs` for the given Lorentz factors in the centre of mass frame, `/repo/src/collisions/collisionsSK98.cpp:129-137`,
`/repo/src/collisions/collisionsP12.cpp:133-139`.  The divisors are not zero for particles slower than light. -/
noncomputable def relSpeed (c ma mb : ℝ) (paCm : Vec3 ℝ) (ga gb : ℝ) : ℝ :=
  let va := paCm.sdiv (ma * ga)
  let vb := (neg3 paCm).sdiv (mb * gb)
  (va.length - vb.length) / (1 - va.dot vb / (c * c))

/-- The momentum `p` turned by the angles with the given sines and cosines, `/repo/src/collisions/collisionsP12.cpp:238-247`.
For a momentum along `z` the divisor is zero. -/
noncomputable def turned (p : Vec3 ℝ) (sT cT sP cP : ℝ) : Res (Vec3 ℝ) :=
  let l := p.length
  let prp := Real.sqrt (p.x * p.x + p.y * p.y)
  if prp = 0 then .ub
  else .ok ⟨p.x * p.z / prp * sT * cP - p.y * l / prp * sT * sP + p.x * cT,
    p.y * p.z / prp * sT * cP + p.x * l / prp * sT * sP + p.y * cT,
    -prp * sT * cP + p.z * cT⟩

/-- `d_p`, `/repo/src/collisions/collisionsSK98.cpp:182-192`. -/
noncomputable def skDelta (p : Vec3 ℝ) (sT cT sP cP : ℝ) : Res (Vec3 ℝ) :=
  let l := p.length
  let prp := Real.sqrt (p.x * p.x + p.y * p.y)
  if prp = 0 then .ub
  else .ok ⟨p.x * p.z / prp * sT * cP - p.y * l / prp * sT * sP - p.x * (1 - cT),
    p.y * p.z / prp * sT * cP + p.x * l / prp * sT * sP - p.y * (1 - cT),
    -prp * sT * cP - p.z * (1 - cT)⟩

/-- Back to the laboratory frame and to a velocity, `/repo/src/collisions/collisionsSK98.cpp:199-218`. -/
noncomputable def toLab (c m : ℝ) (f : Frame) (p : Vec3 ℝ) (p0 : ℝ) : Vec3 ℝ :=
  let q := (p.add (((f.beta.smul (f.beta.dot p)).smul (f.gamma - 1)).sdiv f.beta.length2)).add ((f.beta.smul f.gamma).smul p0)
  let v := q.sdiv m
  v.smul (Rel.lorenzFactorInv c v.length2)

/-- Sine and cosine of the angle in the centre of mass frame, `/repo/src/collisions/collisionsSK98.cpp:172-175`.  A quotient by
zero is infinite, with the arc tangent a right angle; zero by zero is NaN. -/
noncomputable def skAngle (gamma vcm vrel delta : ℝ) : Res (ℝ × ℝ) :=
  let den := gamma * (cosTheta delta - vcm / vrel)
  if den = 0 then
    if sinTheta delta = 0 then .ub else .ok (if sinTheta delta < 0 then -1 else 1, 0)
  else .ok (Real.sin (Real.arctan (sinTheta delta / den)), Real.cos (Real.arctan (sinTheta delta / den)))

/-- The new velocities of `a` (smaller weight) and `b`; `none` when the function returns without a change,
`/repo/src/collisions/collisionsSK98.cpp:86-218`. -/
noncomputable def skCore (c mnzl ma mb delta phi : ℝ) (va vb : Vec3 ℝ) : Res (Option (Vec3 ℝ × Vec3 ℝ)) :=
  if va = vb then .ok none
  else comFrame c ma mb va vb >>= fun f =>
    let vrel := relSpeed c ma mb f.paCm (f.p0aCm / ma / c) (f.p0bCm / mb / c)
    Rel.lorenzFactor c (vrel * vrel) >>= fun gr =>
    if gr * mb * vrel = 0 then .ok none
    else if vrel < mnzl then .ok none
    else skAngle f.gamma (Real.sqrt (f.beta.length2 * (c * c))) vrel delta >>= fun a =>
      skDelta f.paCm a.1 a.2 (Real.sin phi) (Real.cos phi) >>= fun d =>
      .ok (some (toLab c ma f (f.paCm.add d) f.p0aCm, toLab c mb f ((neg3 f.paCm).sub d) f.p0bCm))

/-- `CollisionsSK98::collide_single`, `/repo/src/collisions/collisionsSK98.cpp:29-244`. -/
noncomputable def collideSK (c mnzl ma mb delta phi : ℝ) (pa pb : Part ℝ) : Res (Part ℝ × Part ℝ) :=
  if pb.weight = 0 then .ub
  else if pa.weight / pb.weight ≤ 1 then
    skCore c mnzl ma mb delta phi (vel pa) (vel pb) >>= fun r => match r with
      | none => .ok (pa, pb)
      | some v => .ok (setVel pa v.1, setVel pb v.2)
  else
    skCore c mnzl mb ma delta phi (vel pb) (vel pa) >>= fun r => match r with
      | none => .ok (pa, pb)
      | some v => .ok (setVel pa v.2, setVel pb v.1)

/-- `cos_xi_cm`, `/repo/src/collisions/collisionsP12.cpp:204-228`; the logarithm of zero is not a number here. -/
noncomputable def cosXi (s12 U : ℝ) : Res ℝ :=
  if s12 < 1/10 then if U = 0 then .ub else .ok (1 + s12 * Real.log U)
  else if s12 < 3 then
    let aInv := 0.00569578 + 0.9560202 * s12 - 0.508139 * s12 ^ 2 + 0.47913906 * s12 ^ 3 - 0.12788975 * s12 ^ 4 + 0.02389567 * s12 ^ 5
    let a := 1 / aInv
    .ok (aInv * Real.log (Real.exp (-a) + 2 * U * Real.sinh a))
  else if s12 < 6 then
    let a := 3 * Real.exp (-s12)
    .ok (1 / a * Real.log (Real.exp (-a) + 2 * U * Real.sinh a))
  else .ok (2 * U - 1)

/-- What `collide_single` computes for `a` and `b`, `/repo/src/collisions/collisionsP12.cpp:90-281`; `none`: return without a
change.  `normal` says whether both densities are normal numbers.  The velocity that is not computed because of the
rejection stays the zero vector it is constructed with. -/
noncomputable def p12Core (c mnzl ma mb wa wb s12 U phi Ud : ℝ) (normal : Bool) (va vb : Vec3 ℝ) :
    Res (Option (Vec3 ℝ × Vec3 ℝ)) :=
  if va = vb then .ok none
  else Rel.lorenzFactor c va.length2 >>= fun ga => Rel.lorenzFactor c vb.length2 >>= fun gb =>
    comFrame c ma mb va vb >>= fun f =>
    let vcm := f.beta.smul c
    let vrel := relSpeed c ma mb f.paCm ((1 - va.dot vcm / (c * c)) * ga * f.gamma) ((1 - vb.dot vcm / (c * c)) * gb * f.gamma)
    Rel.lorenzFactor c (vrel * vrel) >>= fun gr =>
    if gr * mb * vrel = 0 then .ok none
    else if vrel < mnzl then .ok none
    else if ¬ normal then .ok none
    else cosXi s12 U >>= fun cx =>
      if 1 - cx ^ 2 < 0 then .ub
      else turned f.paCm (Real.sqrt (1 - cx ^ 2)) cx (Real.sin phi) (Real.cos phi) >>= fun p =>
      .ok (some (if Ud < wa then toLab c ma f p f.p0aCm else Vec3.zero,
        if Ud < wb then toLab c mb f (neg3 p) f.p0bCm else Vec3.zero))

/-- `CollisionsP12::collide_single`, `/repo/src/collisions/collisionsP12.cpp:29-328` (the mean values of lines 283-287 are
left out). -/
noncomputable def collideP12 (c mnzl ma mb s12 U phi Ud : ℝ) (normal : Bool) (pa pb : Part ℝ) : Res (Part ℝ × Part ℝ) :=
  if pb.weight = 0 then .ub
  else if pa.weight / pb.weight ≤ 1 then
    p12Core c mnzl ma mb pa.weight pb.weight s12 U phi Ud normal (vel pa) (vel pb) >>= fun r => match r with
      | none => .ok (pa, pb)
      | some v => .ok (if Ud < pa.weight then setVel pa v.1 else pa, if Ud < pb.weight then setVel pb v.2 else pb)
  else
    p12Core c mnzl mb ma pb.weight pa.weight s12 U phi Ud normal (vel pb) (vel pa) >>= fun r => match r with
      | none => .ok (pa, pb)
      | some v => .ok (if Ud < pb.weight then setVel pa v.2 else pa, if Ud < pa.weight then setVel pb v.1 else pb)

end Coll
end Pico
