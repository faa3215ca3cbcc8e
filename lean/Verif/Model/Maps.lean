import Verif.Model.Weighter
import Verif.Model.Rel

/-!
# Density, momentum, energy and temperature maps of a species  (`/repo/src/specieP.cpp:665-839`)

`c` is `LIGHT_VEL`, `rl` is `REL_LIMIT`, `qe` is `EL_CHARGE` (`EL_CHARGE_INV = 1 / EL_CHARGE`), square
roots are exact.  The products of powers are written with `^ 2`.
-/

namespace Pico
namespace Maps

/-- A particle as far as the maps use it. -/
structure VP where
  r : ℝ
  z : ℝ
  w : ℝ
  vr : ℝ
  vp : ℝ
  vz : ℝ

/-- The maps of a species, `/repo/include/specieP.hpp`; `momAbs` is `momentum_abs_map_w`, `momW` is
`momentum_map_w`, `mom` is `momentum_map`. -/
structure St where
  density : Grid ℝ
  momAbs : Grid ℝ
  momW : Grid3D ℝ
  mom : Grid3D ℝ
  energy : Grid ℝ
  temperature : Grid ℝ

/-- The constants of a species: speed of light, `REL_LIMIT`, charge of the electron, mass. -/
structure Par where
  pi : ℝ
  c : ℝ
  rl : ℝ
  qe : ℝ
  mass : ℝ

/-- The momentum that one particle adds to `momentum_abs_map_w`, `/repo/src/specieP.cpp:724-736`. -/
noncomputable def pAbs (q : Par) (p : VP) : Res ℝ :=
  let v := Real.sqrt (p.vr ^ 2 + p.vp ^ 2 + p.vz ^ 2)
  let pa := q.mass * p.w * v
  if v < q.rl then Rel.lorenzFactor q.c (v ^ 2) >>= fun gamma => .ok (pa * gamma)
  else .ok pa

/-- `calc_momentum_abs_w`, `/repo/src/specieP.cpp:717-743`. -/
noncomputable def calcMomAbs (q : Par) (g : Geom ℝ) (m : Grid ℝ) (ps : List VP) : Res (Grid ℝ) :=
  m.assign 0 >>= fun m => m.overlaySet 0 >>= fun m =>
    loop (fun p m => pAbs q p >>= fun a => weightCyl q.pi g m p.r p.z a) ps m

/-- The momentum components that one particle adds to `momentum_map_w`,
`/repo/src/specieP.cpp:752-770`. -/
noncomputable def pVec (q : Par) (p : VP) : Res (ℝ × ℝ × ℝ) :=
  let m := q.mass * p.w
  let v2 := p.vr ^ 2 + p.vp ^ 2 + p.vz ^ 2
  if v2 < q.rl * q.rl then
    Rel.lorenzFactor q.c v2 >>= fun gamma => .ok (m * p.vr * gamma, m * p.vp * gamma, m * p.vz * gamma)
  else .ok (m * p.vr, m * p.vp, m * p.vz)

/-- `calc_momentum_w`, `/repo/src/specieP.cpp:745-787`. -/
noncomputable def calcMomW (q : Par) (g : Geom ℝ) (m : Grid3D ℝ) (ps : List VP) : Res (Grid3D ℝ) :=
  m.assign 0 >>= fun m => m.overlaySet 0 >>= fun m =>
    loop (fun p m => pVec q p >>= fun a =>
      weightCyl q.pi g m.r p.r p.z a.1 >>= fun mr =>
      weightCyl q.pi g m.phi p.r p.z a.2.1 >>= fun mp =>
      weightCyl q.pi g m.z p.r p.z a.2.2 >>= fun mz => .ok ⟨mr, mp, mz⟩) ps m

/-- Position and weight of a particle. -/
def VP.wp (p : VP) : WP ℝ := ⟨p.r, p.z, p.w⟩

/-- One turn of the loop of `calc_energy`, `/repo/src/specieP.cpp:799-820`. -/
noncomputable def energyCell (q : Par) (density momAbs : Grid ℝ) (x : Nat × Nat) (e : Grid ℝ) : Res (Grid ℝ) :=
  density.get x.1 x.2 >>= fun n =>
  if n = 0 then e.set x.1 x.2 0
  else momAbs.get x.1 x.2 >>= fun a =>
    Rel.energyM q.c (q.rl * q.rl) q.mass (a ^ 2 / n ^ 2) >>= fun en => e.set x.1 x.2 (en * (1 / q.qe))

/-- `calc_energy`, `/repo/src/specieP.cpp:789-821`. -/
noncomputable def calcEnergy (q : Par) (g : Geom ℝ) (ps : List VP) (s : St) : Res St :=
  s.energy.assign 0 >>= fun e => e.overlaySet 0 >>= fun e =>
  calcDensity q.pi g s.density (ps.map VP.wp) >>= fun d =>
  calcMomAbs q g s.momAbs ps >>= fun a =>
  loop (energyCell q d a) (idx2 0 g.nr 0 g.nz) e >>= fun e =>
  .ok { s with energy := e, density := d, momAbs := a }

/-- One turn of the loop of `calc_temperature`, `/repo/src/specieP.cpp:688-714`. -/
noncomputable def temperatureCell (q : Par) (density momAbs : Grid ℝ) (momW : Grid3D ℝ) (x : Nat × Nat) (t : Grid ℝ) :
    Res (Grid ℝ) :=
  density.get x.1 x.2 >>= fun n =>
  if n = 0 then t.set x.1 x.2 0
  else
    momW.r.get x.1 x.2 >>= fun pr => momW.phi.get x.1 x.2 >>= fun pp => momW.z.get x.1 x.2 >>= fun pz =>
    momAbs.get x.1 x.2 >>= fun a =>
    Rel.energyM q.c (q.rl * q.rl) q.mass ((a ^ 2 - (pr ^ 2 + pp ^ 2 + pz ^ 2)) / n ^ 2) >>= fun en =>
    t.set x.1 x.2 (en * (1 / q.qe))

/-- `calc_temperature`, `/repo/src/specieP.cpp:678-715`.  It calls `calc_momentum_w`, which does not
touch `momentum_abs_map_w`, in spite of the comment in line 686. -/
noncomputable def calcTemperature (q : Par) (g : Geom ℝ) (ps : List VP) (s : St) : Res St :=
  s.temperature.assign 0 >>= fun t => t.overlaySet 0 >>= fun t =>
  calcDensity q.pi g s.density (ps.map VP.wp) >>= fun d =>
  calcMomW q g s.momW ps >>= fun w =>
  loop (temperatureCell q d s.momAbs w) (idx2 0 g.nr 0 g.nz) t >>= fun t =>
  .ok { s with temperature := t, density := d, momW := w }

/-- One turn of the loop of `calc_momentum`, `/repo/src/specieP.cpp:831-838`. -/
noncomputable def momentumCell (density : Grid ℝ) (momW : Grid3D ℝ) (x : Nat × Nat) (m : Grid3D ℝ) : Res (Grid3D ℝ) :=
  density.get x.1 x.2 >>= fun n =>
  if n ≠ 0 then
    momW.r.get x.1 x.2 >>= fun pr => m.r.set x.1 x.2 (pr / n) >>= fun mr =>
    momW.phi.get x.1 x.2 >>= fun pp => m.phi.set x.1 x.2 (pp / n) >>= fun mp =>
    momW.z.get x.1 x.2 >>= fun pz => m.z.set x.1 x.2 (pz / n) >>= fun mz => .ok ⟨mr, mp, mz⟩
  else .ok m

/-- `calc_momentum`, `/repo/src/specieP.cpp:823-839`. -/
noncomputable def calcMomentum (q : Par) (g : Geom ℝ) (ps : List VP) (s : St) : Res St :=
  calcDensity q.pi g s.density (ps.map VP.wp) >>= fun d =>
  calcMomW q g s.momW ps >>= fun w =>
  s.mom.assign 0 >>= fun m => m.overlaySet 0 >>= fun m =>
  loop (momentumCell d w) (idx2 0 g.nr 0 g.nz) m >>= fun m =>
  .ok { s with density := d, momW := w, mom := m }

end Maps
end Pico
