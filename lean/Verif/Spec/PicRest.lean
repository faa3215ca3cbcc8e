import Verif.Spec.Pic

/-! Specification vocabulary: a simulation in which nothing happens (C126). -/

namespace Pico
namespace Pic

open SMB Yee

/-- There are no fields and no currents, and all particles stand still. -/
structure AtRest (E : Env) (S : State) : Prop where
  fields : ∀ i j, i < E.domR → j < E.domZ → ∀ c : Yee.Comp, c ≠ .eps → c ≠ .sig → ∀ x y, S.M i j c x y = 0
  still : ∀ i j, i < E.domR → j < E.domZ → ∀ sp ∈ S.D i j, ∀ o ∈ sp.parts, vel (S.heap o.tag) = ⟨0, 0, 0⟩

/-- No particle is exactly at the lower or the left border of its domain. -/
def OffBorder (E : Env) (S : State) : Prop :=
  ∀ i j, i < E.domR → j < E.domZ → ∀ sp ∈ S.D i j, ∀ o ∈ sp.parts,
    (S.heap o.tag).posR ≠ low E.p.nr E.domR i * E.p.dr ∧ (S.heap o.tag).posZ ≠ low E.p.nz E.domZ j * E.p.dz

/-- Two states that show the same particles in the same places with the same velocities and weights, and the same media. -/
structure Unchanged (E : Env) (ids : List Nat) (S T : State) : Prop where
  lists : ∀ id ∈ ids, (tagsOf E T.D id).Perm (tagsOf E S.D id)
  heap : ∀ id ∈ ids, ∀ t ∈ tagsOf E S.D id, (T.heap t).posR = (S.heap t).posR ∧ (T.heap t).posPhi = (S.heap t).posPhi ∧
    (T.heap t).posZ = (S.heap t).posZ ∧ vel (T.heap t) = vel (S.heap t) ∧ (T.heap t).weight = (S.heap t).weight
  media : ∀ i j, i < E.domR → j < E.domZ → ∀ c : Yee.Comp, c = .eps ∨ c = .sig → ∀ x y, T.M i j c x y = S.M i j c x y

end Pic
end Pico
