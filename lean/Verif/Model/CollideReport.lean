import Verif.Model.CollidePass

/-!
# The mean values of P12  (`/repo/src/collisions/collisionsP12.cpp:283-287,330-336,532-568`)

`collide` of P12 with the members `s_mean` and `ncol`.  Of `debye_mean` and `L_mean`, which are only printed, nothing is modelled.
-/

namespace Pico
namespace Coll

/-- Whether `collide_single` gets to its end, `/repo/src/collisions/collisionsP12.cpp:90-287`. -/
noncomputable def counted (P : Phys) (a : Args) (r : Rnd) (pa pb : Part ℝ) : Bool :=
  match if pa.weight / pb.weight ≤ 1 then p12Core P.k.c P.mnzl a.ma a.mb pa.weight pb.weight r.x r.y r.phi r.z r.normal (vel pa) (vel pb)
    else p12Core P.k.c P.mnzl a.mb a.ma pb.weight pa.weight r.x r.y r.phi r.z r.normal (vel pb) (vel pa) with
  | .ok (some _) => true
  | _ => false

/-- State of the loops and the values of `s12` that were added to `s_mean`; `ncol` is their number. -/
abbrev StS := St × List ℝ

/-- `hit` and the two members, `/repo/src/collisions/collisionsP12.cpp:283-287`. -/
noncomputable def hitS (P : Phys) (rnd : Nat → Rnd) (a : Args) (x y : Option Nat) (s : StS) : Res StS :=
  hit .p12 P rnd a x y s.1 >>= fun s' => .ok (s', match x, y with
    | some x, some y => if counted P a (rnd s.1.2) (s.1.1 x) (s.1.1 y) then s.2 ++ [(rnd s.1.2).x] else s.2
    | _, _ => s.2)

/-- `onePair` with the members, `/repo/src/collisions/collisionsP12.cpp:362-529`. -/
noncomputable def onePairS (P : Phys) (rnd : Nat → Rnd) (K : Kinds) (ne ni debye : ℝ) (els ions : List Nat) (pr : Pair) (s : StS) : Res StS :=
  match pr with
  | .ii a b => hitS P rnd ⟨K.massIon, K.massIon, K.chargeIon, K.chargeIon, ni, ni, debye⟩ ions[a]? ions[b]? s
  | .ee a b => hitS P rnd ⟨K.massEl, K.massEl, K.chargeEl, K.chargeEl, ne, ne, debye⟩ els[a]? els[b]? s
  | .ei a b => hitS P rnd ⟨K.massEl, K.massIon, K.chargeEl, K.chargeIon, ne, ni, debye⟩ els[a]? ions[b]? s

/-- `collideCell` with the members, `/repo/src/collisions/collisionsP12.cpp:340-530`. -/
noncomputable def collideCellS (P : Phys) (rnd : Nat → Rnd) (K : Kinds) (g : Place) (els ions : Nat → Nat → List Nat) (before : Heap)
    (c : Nat × Nat) (s : StS) : Res StS :=
  cellDebye P.k g.dr g.dz K.massEl K.massIon g.r0 c.1 ((els c.1 c.2).map before) ((ions c.1 c.2).map before) >>= fun d =>
  match d with
  | none => .ok s
  | some debye =>
    loop (onePairS P rnd K (cellDensity P.k g.dr g.dz g.r0 c.1 ((els c.1 c.2).map before))
      (cellDensity P.k g.dr g.dz g.r0 c.1 ((ions c.1 c.2).map before)) debye (els c.1 c.2) (ions c.1 c.2))
      (cellPairs float32 (ions c.1 c.2).length (els c.1 c.2).length) s

/-- The loops of `collide`, `/repo/src/collisions/collisionsP12.cpp:330-531`. -/
noncomputable def collideS (P : Phys) (rnd : Nat → Rnd) (K : Kinds) (g : Place) (els ions : Nat → Nat → List Nat) (h : Heap) : Res StS :=
  loop (collideCellS P rnd K g els ions h)
    (visited K.massEl K.massIon g.nr g.nz (fun i j => (els i j).map h) (fun i j => (ions i j).map h)) ((h, 0), [])

/-- The end of `collide`, `/repo/src/collisions/collisionsP12.cpp:532-568`: zero divided by zero is not greater than 1.2; a mean value greater than
1.2 leads to `t_el += ...` and four more updates of local variables that have no value. -/
noncomputable def report (ss : List ℝ) : Res Unit :=
  if ss = [] then .ok () else if 1.2 < ss.sum / ss.length then .ub else .ok ()

/-- The whole `collide` of P12. -/
noncomputable def collideP12All (P : Phys) (rnd : Nat → Rnd) (K : Kinds) (g : Place) (els ions : Nat → Nat → List Nat) (h : Heap) : Res Heap :=
  collideS P rnd K g els ions h >>= fun s => report s.2 >>= fun _ => .ok s.1.1

end Coll
end Pico
