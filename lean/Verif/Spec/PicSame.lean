import Verif.Spec.Pic

/-! Specification vocabulary: a divided simulation and the undivided one in the same state. -/

namespace Pico
namespace Pic

open SMB Yee

/-- The same simulation without division. -/
def Env.whole (E : Env) : Env := { E with domR := 1, domZ := 1 }

/-- The divided simulation `S` and the undivided one `W` show the same: the fields in the cells (and in the overlays, where the
division has them), the currents and media in the cells, the particles themselves, and which particles every species has. -/
structure Same (E : Env) (ids : List Nat) (S W : State) : Prop where
  fields : ∀ c, c.isSource = false → Windows E.p E.domR E.domZ c S.M (W.M 0 0)
  sources : SameSources E.p E.domR E.domZ S.M (W.M 0 0)
  heap : S.heap = W.heap
  lists : ∀ id ∈ ids, (tagsOf E S.D id).Perm (tagsOf E.whole W.D id)

/-- No particle is in a cell where four domains meet diagonally (the seam of C63). -/
def NoSeam (E : Env) (S : State) : Prop :=
  ∀ i j, i < E.domR → j < E.domZ → ∀ sp ∈ S.D i j, ∀ o ∈ sp.parts,
    ¬ ((i + 1 < E.domR ∧ 0 < j ∧ ⌊(S.heap o.tag).posR / E.p.dr⌋ + 1 = (low E.p.nr E.domR (i + 1) : Int) ∧
        ⌊(S.heap o.tag).posZ / E.p.dz⌋ = (low E.p.nz E.domZ j : Int)) ∨
      (0 < i ∧ j + 1 < E.domZ ∧ ⌊(S.heap o.tag).posR / E.p.dr⌋ = (low E.p.nr E.domR i : Int) ∧
        ⌊(S.heap o.tag).posZ / E.p.dz⌋ + 1 = (low E.p.nz E.domZ (j + 1) : Int)))

/-- The last move of no particle cut the corner of a domain (C96). -/
def NoCut (E : Env) (S : State) : Prop :=
  ∀ i j, i < E.domR → j < E.domZ → ∀ sp ∈ S.D i j, ∀ o ∈ sp.parts,
    ¬ CutsCorner E.p E.domR E.domZ i j (depositOf (E.charge sp.id) (S.heap o.tag))

end Pic
end Pico
