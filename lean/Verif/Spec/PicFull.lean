import Verif.Model.PicFull
import Verif.Spec.Pic
import Verif.Spec.CollidePass
import Verif.Props.Pusher

/-! Vocabulary for whole runs with external fields and collisions. -/

namespace Pico
namespace Pic

open SMB Yee

/-- Every listed particle, with its domain and its species. -/
def Each (F : Full) (S : FState) (P : Nat → Nat → Sp → Nat → Prop) : Prop :=
  ∀ i j, i < F.env.domR → j < F.env.domZ → ∀ sp ∈ S.s.D i j, ∀ o ∈ sp.parts, P i j sp o.tag

/-- A sane state: that of `Alive`, positive weights, fewer than `2^24` particles, cell lists of the right size. -/
structure FAlive (F : Full) (ids : List Nat) (S : FState) : Prop where
  alive : Alive F.env ids S.s
  weight : Each F S fun _ _ _ t => 0 < (S.s.heap t).weight
  few : (ids.flatMap (tagsOf F.env S.s.D)).length < 2 ^ 24
  maps : ∀ i j, i < F.env.domR → j < F.env.domZ → (S.maps i j).Shape (F.place i j).nr (F.place i j).nz

/-- A sane build: the chamber, one of the relativistic pushers, both parts use the same velocity of light, masses and charges of
electrons and ions are not zero. -/
structure Built (F : Full) : Prop where
  chamber : Chamber F.env
  pusher : Pusher.Relativistic F.env.kind
  small : F.env.p.nr + 4 < 2 ^ 31 ∧ F.env.p.nz + 4 < 2 ^ 31
  light : ∀ M P K, F.coll = some (M, P, K) → P.k.c = F.env.c
  physical : ∀ M P K, F.coll = some (M, P, K) → ∀ i j, i < F.env.domR → j < F.env.domZ → Coll.Physical P K (F.place i j)

/-- The external fields work: no profile that would end the run (see C24). -/
def ExtWorks (F : Full) : Prop := ∀ o, F.ext = some o → (o.e ≤ 2 ∨ o.e = 4 ∨ o.e = 5 ∨ o.e = 3 ∧ o.ePar ≠ []) ∧ (o.m ≤ 2 ∨ o.m = 4 ∨ o.m = 5 ∨ o.m = 3 ∧ o.mPar ≠ [])

/-- The build has no collisions or one of the relativistic methods. -/
def NotTA (F : Full) : Prop := ∀ P K, F.coll ≠ some (.ta77s, P, K)

/-- Whatever the random numbers, after push and collisions of the next step all particles are slower than light. -/
def SlowNext (F : Full) (S : FState) : Prop :=
  ∀ M1 X maps H, Speeds F S M1 X maps H → Each F S fun i j _ t => (vel (H i j t)).length2 < F.env.c ^ 2

/-- Whatever the random numbers, no particle will arrive exactly at a border of its domain in the next step. -/
def ClearNext (F : Full) (S : FState) : Prop :=
  ∀ M1 X maps H, Speeds F S M1 X maps H → Each F S fun i j _ t => Clear F.env i j (S.s.heap t) (vel (H i j t))

end Pic
end Pico
