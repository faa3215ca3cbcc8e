import Verif.Spec.PicSame

/-! Specification vocabulary: where the charges are and how they move, without regard to how they are packed into macroparticles (C125). -/

namespace Pico
namespace Pic

open SMB Yee

/-- A point of phase space: position and velocity. -/
structure Phase where
  r : ℝ
  z : ℝ
  vr : ℝ
  vphi : ℝ
  vz : ℝ

/-- Position and velocity of a macroparticle. -/
def phase (a : Part ℝ) : Phase := ⟨a.posR, a.posZ, a.velR, a.velPhi, a.velZ⟩

open Classical in
/-- How many particles of species `id` are at the point `k` of phase space: the sum of the weights of the macroparticles there. -/
noncomputable def cloud (E : Env) (S : State) (id : Nat) (k : Phase) : ℝ :=
  (((tagsOf E S.D id).filter fun t => phase (S.heap t) = k).map fun t => (S.heap t).weight).sum

/-- Two states of an undivided simulation show the same: the same fields, currents and media in the chamber; for the species
`P` the same numbers of particles at every point of phase space; and the macroparticles `C id t` (species and address), which both
states have, are in exactly the same state. -/
structure SameCloud (E : Env) (P : Nat → Prop) (C : Nat → Nat → Prop) (S T : State) : Prop where
  fields : ∀ (c : Yee.Comp) (x y : Int), c.isSource = false → (-2 ≤ x ∧ x < E.p.nr + 2) → (-2 ≤ y ∧ y < E.p.nz + 2) → S.M 0 0 c x y = T.M 0 0 c x y
  sources : ∀ (c : Yee.Comp) (x y : Int), c.isSource = true → (0 ≤ x ∧ x < E.p.nr) → (0 ≤ y ∧ y < E.p.nz) → S.M 0 0 c x y = T.M 0 0 c x y
  clouds : ∀ id, P id → ∀ k, cloud E S id k = cloud E T id k
  common : ∀ id t, C id t → t ∈ tagsOf E S.D id ∧ t ∈ tagsOf E T.D id ∧ S.heap t = T.heap t

end Pic
end Pico
