import Verif.Model.Pic

/-! # C129 — the same simulation in other units -/

namespace Pico
namespace Pic

open SMB Yee

/-- Other units: all lengths become `len` times, all times `time` times, all electric fields `ef` times, permittivities `eps` times and charges of
particles `q` times as large a number.  The numbers of all other quantities follow. -/
structure Units where
  len : ℝ
  time : ℝ
  ef : ℝ
  eps : ℝ
  q : ℝ
  len_pos : 0 < len
  time_pos : 0 < time
  ef_ne : ef ≠ 0
  eps_ne : eps ≠ 0
  q_ne : q ≠ 0

namespace Units
variable (U : Units)

/-- Velocities. -/
noncomputable def vel : ℝ := U.len / U.time
/-- Magnetic fields (`curl H = eps dE/dt`). -/
noncomputable def hf : ℝ := U.ef * U.eps * U.len / U.time
/-- Current densities (`j = eps dE/dt`). -/
noncomputable def cur : ℝ := U.ef * U.eps / U.time
/-- Permeabilities (`eps mu c² = 1`). -/
noncomputable def mu : ℝ := U.time ^ 2 / (U.eps * U.len ^ 2)
/-- Masses (`m dv/dt = q E`). -/
noncomputable def mass : ℝ := U.q * U.ef * U.time ^ 2 / U.len
/-- Weights of macroparticles, the charge of a macroparticle being a current density times an area times a time. -/
noncomputable def weight : ℝ := U.cur * U.len ^ 2 * U.time / U.q

/-- The factor of a grid: electric fields, magnetic fields, currents, permittivity, conductivity. -/
noncomputable def comp : Yee.Comp → ℝ
  | .er | .ep | .ez => U.ef
  | .hr | .hp | .hz | .fr | .fp | .fz => U.hf
  | .jr | .jp | .jz => U.cur
  | .eps => U.eps
  | .sig => U.eps / U.time

/-- Cell sizes, time step and permeability. -/
noncomputable def par (p : Yee.Par ℝ) : Yee.Par ℝ := { p with dr := U.len * p.dr, dz := U.len * p.dz, dt := U.time * p.dt, mu := U.mu * p.mu }

/-- Constants of the deposition: the smallest length. -/
noncomputable def consts (e : Consts ℝ) : Consts ℝ := { e with mnzl := U.len * e.mnzl }

/-- The simulation. -/
noncomputable def env (E : Env) : Env :=
  { E with p := U.par E.p, e := U.consts E.e, c := U.vel * E.c, lim := U.vel ^ 2 * E.lim, charge := (fun id => U.q * E.charge id), mass := (fun id => U.mass * E.mass id) }

/-- A particle. -/
noncomputable def part (a : Part ℝ) : Part ℝ :=
  { a with
    posR := U.len * a.posR, posPhi := U.len * a.posPhi, posZ := U.len * a.posZ, oldR := U.len * a.oldR, oldPhi := U.len * a.oldPhi, oldZ := U.len * a.oldZ,
    velR := U.vel * a.velR, velPhi := U.vel * a.velPhi, velZ := U.vel * a.velZ, weight := U.weight * a.weight }

/-- A state. -/
noncomputable def state (S : State) : State where
  M := fun i j c x y => U.comp c * S.M i j c x y
  heap := fun t => U.part (S.heap t)
  D := S.D

/-- Geometry of a domain. -/
noncomputable def geom (U : Units) (g : Geom ℝ) : Geom ℝ := { g with dr := U.len * g.dr, dz := U.len * g.dz }

/-- Surroundings of the deposition. -/
noncomputable def ctx (U : Units) (x : VB.Ctx ℝ) : VB.Ctx ℝ := { x with g := U.geom x.g, dt := U.time * x.dt, mnzl := U.len * x.mnzl }

/-- The charge of a macroparticle. -/
noncomputable def load (U : Units) : ℝ := U.cur * U.len ^ 2 * U.time

/-- A particle as the deposition sees it. -/
noncomputable def dep (U : Units) (p : VB.Part ℝ) : VB.Part ℝ :=
  { p with r := U.len * p.r, z := U.len * p.z, rOld := U.len * p.rOld, zOld := U.len * p.zOld, vphi := U.vel * p.vphi, q := U.load * p.q }

/-- The constants of a push. -/
noncomputable def ppar (U : Units) (P : Pusher.Par) : Pusher.Par := ⟨U.vel * P.c, U.mu * P.mu, U.vel ^ 2 * P.lim, U.time * P.dt, U.q * P.charge, U.mass * P.mass⟩

end Units

/-- No particle has just moved purely radially from one cell into another (as the deposition sees it). -/
def Straight (E : Env) (S : State) : Prop :=
  ∀ i j, i < E.domR → j < E.domZ → ∀ sp ∈ S.D i j, ∀ o ∈ sp.parts, |(S.heap o.tag).posZ - (S.heap o.tag).oldZ| < E.e.mnzl →
    |(S.heap o.tag).posR - (S.heap o.tag).oldR| < E.e.mnzl ∨ ⌊(S.heap o.tag).posR / (E.geom i j).dr⌋ = ⌊(S.heap o.tag).oldR / (E.geom i j).dr⌋

end Pic
end Pico
