import Verif.Model.PicAll
import Verif.Spec.PicBeam
import Verif.Spec.PicFull

/-! Specification vocabulary for whole runs with beams, external fields and collisions. -/

namespace Pico
namespace Pic

open SMB Yee

/-- A sane build with sane beams. -/
structure GBuilt (G : GEnv) : Prop where
  built : Built G.full
  chamber : BeamChamber G.b

/-- A sane state: that of `BAlive`, positive weights, cell lists of the right size. -/
structure GAlive (G : GEnv) (ids : List Nat) (S : GState) : Prop where
  alive : BAlive G.b ids S.b
  weight : Each G.full S.f fun _ _ _ t => 0 < (S.f.s.heap t).weight
  maps : ∀ i j, i < G.full.env.domR → j < G.full.env.domZ → (S.f.maps i j).Shape (G.full.place i j).nr (G.full.place i j).nz

/-- What the collisions need after the injection: fewer than `2^24` particles, whose cell numbers are cells of their domains. -/
def Sortable (G : GEnv) (ids : List Nat) (S : FState) : Prop :=
  G.full.coll ≠ none → (ids.flatMap (tagsOf G.full.env S.s.D)).length < 2 ^ 24 ∧
    Each G.full S fun i j _ t => Coll.Bound (G.full.place i j).r0 (G.full.place i j).z0 (G.full.place i j).nr (G.full.place i j).nz (S.s.heap t)

/-- Whatever the random numbers of the collisions, in the flight that follows no particle of the plasma will arrive exactly at a border of its
domain and no particle of a beam exactly on the axis. -/
def ClearAll (G : GEnv) (S : FState) : Prop :=
  ∀ M1 X maps H, Speeds G.full S M1 X maps H → Each G.full S fun i j sp t =>
    (¬ G.b.isBeam sp.id → Clear G.full.env i j (S.s.heap t) (vel (H i j t))) ∧ (G.b.isBeam sp.id → landR G.full.env (S.s.heap t) (vel (H i j t)) ≠ 0)

/-- All beams are narrower than the domains in the first row are high, and than those in the first column are long. -/
def Narrow (G : GEnv) : Prop :=
  ∀ b ∈ G.beams, b.radius + G.full.env.p.dr / 2 ≤ hgt G.full.env.p.nr G.full.env.domR 0 * G.full.env.p.dr ∧
    b.radius + G.full.env.p.dr / 2 ≤ hgt G.full.env.p.nz G.full.env.domZ 0 * G.full.env.p.dz

end Pic
end Pico
