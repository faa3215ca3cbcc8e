import Verif.Model.Collide

/-! Vocabulary for the collision properties C38, C39, C40: total momentum and energy. -/

namespace Pico
namespace Coll

/-- Classical momentum and kinetic energy of a body. -/
def cMomentum (m : ℝ) (v : Vec3 ℝ) : Vec3 ℝ := ⟨m * v.x, m * v.y, m * v.z⟩
noncomputable def cEnergy (m : ℝ) (v : Vec3 ℝ) : ℝ := m * (v.x ^ 2 + v.y ^ 2 + v.z ^ 2) / 2

/-- Total momentum and energy of a list of macroparticles of one species. -/
noncomputable def lMomentum (mass : ℝ) (l : List (Part ℝ)) : Vec3 ℝ :=
  ⟨(l.map fun p => mass * p.weight * p.velR).sum, (l.map fun p => mass * p.weight * p.velPhi).sum, (l.map fun p => mass * p.weight * p.velZ).sum⟩
noncomputable def lEnergy (mass : ℝ) (l : List (Part ℝ)) : ℝ :=
  (l.map fun p => mass * p.weight * (p.velR ^ 2 + p.velPhi ^ 2 + p.velZ ^ 2) / 2).sum

/-- Relativistic Lorentz factor, momentum and energy (over `c`) of a body slower than light. -/
noncomputable def rGamma (c : ℝ) (v : Vec3 ℝ) : ℝ := 1 / Real.sqrt (1 - (v.x ^ 2 + v.y ^ 2 + v.z ^ 2) / c ^ 2)
noncomputable def rMomentum (c m : ℝ) (v : Vec3 ℝ) : Vec3 ℝ := ⟨m * rGamma c v * v.x, m * rGamma c v * v.y, m * rGamma c v * v.z⟩
noncomputable def rEnergy (c m : ℝ) (v : Vec3 ℝ) : ℝ := m * rGamma c v * c

/-- Slower than light. -/
def Slow (c : ℝ) (v : Vec3 ℝ) : Prop := v.x ^ 2 + v.y ^ 2 + v.z ^ 2 < c ^ 2

/-- Two collisions states have the same total relativistic momentum and energy. -/
def SameTotals (c ma mb : ℝ) (va vb va' vb' : Vec3 ℝ) : Prop :=
  (rMomentum c ma va').add (rMomentum c mb vb') = (rMomentum c ma va).add (rMomentum c mb vb) ∧
  rEnergy c ma va' + rEnergy c mb vb' = rEnergy c ma va + rEnergy c mb vb

/-- Only the velocity differs. -/
def OnlyVel (p q : Part ℝ) : Prop := ∃ v, q = setVel p v

end Coll
end Pico
