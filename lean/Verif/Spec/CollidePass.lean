import Verif.Model.CollidePass
import Verif.Spec.Collide
import Verif.Spec.Pairing

/-! Vocabulary for the properties of whole collision steps, C102 to C105. -/

namespace Pico
namespace Coll

/-- Masses, constants and sizes are positive, charges are not zero. -/
structure Physical (P : Phys) (K : Kinds) (g : Place) : Prop where
  pi : 0 < P.k.pi
  eps : P.k.eps ≠ 0
  dt : 0 < P.dt
  massEl : 0 < K.massEl
  massIon : 0 < K.massIon
  chargeEl : K.chargeEl ≠ 0
  chargeIon : K.chargeIon ≠ 0
  dr : 0 < g.dr
  dz : 0 < g.dz
  rows : g.r0 + g.nr + 4 < 2 ^ 31
  cols : g.z0 + g.nz + 4 < 2 ^ 31

/-- The particles of a domain: all addresses are different, every particle has a positive weight and is bound to a cell of the
domain; fewer than `2^24` particles. -/
structure Filled (g : Place) (sp : List Species) (h : Heap) : Prop where
  nodup : (sp.flatMap Species.particles).Nodup
  weight : ∀ s ∈ sp, ∀ p ∈ s.particles, 0 < (h p).weight
  bound : ∀ s ∈ sp, ∀ p ∈ s.particles, Bound g.r0 g.z0 g.nr g.nz (h p)
  few : (sp.flatMap Species.particles).length < 2 ^ 24

/-- Two particles of the list have different velocities. -/
def Differ (h : Heap) (l : List Nat) : Prop := ∃ p ∈ l, ∃ q ∈ l, vel (h p) ≠ vel (h q)

/-- Total momentum and kinetic energy of the particles behind a list of addresses. -/
noncomputable def momentumOf (mass : ℝ) (h : Heap) (l : List Nat) : Vec3 ℝ :=
  ⟨(l.map fun t => mass * (h t).weight * (h t).velR).sum, (l.map fun t => mass * (h t).weight * (h t).velPhi).sum,
    (l.map fun t => mass * (h t).weight * (h t).velZ).sum⟩
noncomputable def energyOf (mass : ℝ) (h : Heap) (l : List Nat) : ℝ :=
  (l.map fun t => mass * (h t).weight * ((h t).velR ^ 2 + (h t).velPhi ^ 2 + (h t).velZ ^ 2) / 2).sum

/-- Any number of collision steps one after the other, with the states between them. -/
inductive Steps (P : Phys) (K : Kinds) (g : Place) (sp : List Species) (h : Heap) (m : Maps) : List Heap → Heap → Maps → Prop
  | none : Steps P K g sp h m [h] h m
  | more {L h1 m1 h2 m2} : Steps P K g sp h m L h1 m1 → Pass .ta77s P K g sp h1 m1 h2 m2 → Steps P K g sp h m (h2 :: L) h2 m2

end Coll
end Pico
