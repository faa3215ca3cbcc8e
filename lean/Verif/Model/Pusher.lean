import Verif.Model.Rel
import Verif.Model.Interp

/-!
# Particle pushers  (`/repo/src/pusher/*.cpp`)

Each function is the body of the loop over particles: it takes the charge and the mass of the species, the
fields at the particle and its velocity, and gives the new velocity.  `c` is `LIGHT_VEL`, `mu` is
`MAGN_CONST`, `lim` is `REL_LIMIT_POW_2`, `dt` is `time->step`.  The check of the position for NaN and
infinity (`/repo/src/pusher/pusherBoris.cpp:50-57`) has no counterpart over the reals.
-/

namespace Pico
namespace Pusher

open Rel

/-- Constants of a push. -/
structure Par where
  c : ℝ
  mu : ℝ
  lim : ℝ
  dt : ℝ
  charge : ℝ
  mass : ℝ

/-- `charge_over_2mass_dt`, `/repo/src/pusher/pusherBoris.cpp:67`, `pusherVay.cpp:40`, `pusherHC.cpp:43`. -/
noncomputable def Par.k (P : Par) : ℝ := P.charge * P.dt / (2 * P.mass)

/-- Rotation in the magnetic field, `/repo/src/pusher/pusherBoris.cpp:110-128`. -/
noncomputable def rotate (b v : Vec3 ℝ) : Vec3 ℝ :=
  let const2 := 2 / (1 + b.length2)
  ⟨v.x + const2 * ((v.y - v.x * b.z + v.z * b.x) * b.z - (v.z + v.x * b.y - v.y * b.x) * b.y),
   v.y + const2 * (-(v.x + v.y * b.z - v.z * b.y) * b.z + (v.z + v.x * b.y - v.y * b.x) * b.x),
   v.z + const2 * ((v.x + v.y * b.z - v.z * b.y) * b.y - (v.y - v.x * b.z + v.z * b.x) * b.x)⟩

/-- Boris pusher without the relativistic factors, `/repo/src/pusher/pusherBoris.cpp:67-70,95,110-132`
compiled with `SWITCH_PUSHER_BORIS`, or with `use_rel == false`. -/
noncomputable def borisClassic (P : Par) (e b v : Vec3 ℝ) : Vec3 ℝ :=
  let e := e.smul P.k
  let b := b.smul (P.k * P.mu)
  (rotate b (v.add e)).add e

/-- Boris pusher with the relativistic factors, `/repo/src/pusher/pusherBoris.cpp:67-70,85-88,95,105-107,
110-132,140-142` compiled with `SWITCH_PUSHER_BORIS_RELATIVISTIC`, or with `use_rel == true`. -/
noncomputable def borisRel (P : Par) (e b v : Vec3 ℝ) : Res (Vec3 ℝ) :=
  let e := e.smul P.k
  let b := b.smul (P.k * P.mu)
  lorenzFactor P.c v.length2 >>= fun gamma =>
  let v := v.smul gamma
  let v := v.add e
  let b := b.smul (lorenzFactorInv P.c v.length2)
  let v := rotate b v
  let v := v.add e
  .ok (v.smul (lorenzFactorInv P.c v.length2))

/-- Boris pusher compiled with `SWITCH_PUSHER_BORIS_ADAPTIVE` (the default),
`/repo/src/pusher/pusherBoris.cpp:23-151`: `use_rel` (line 38) is not initialised, `junk` is the value it
happens to have. -/
noncomputable def borisAdaptive (P : Par) (junk : Bool) (e b v : Vec3 ℝ) : Res (Vec3 ℝ) :=
  let useRel := if v.x ^ 2 + v.y ^ 2 + v.z ^ 2 > P.lim then true else junk
  if useRel then borisRel P e b v else .ok (borisClassic P e b v)

/-- `1 / sqrt(0.5 * (s + sqrt(s * s + 4 * w)))`, `/repo/src/pusher/pusherVay.cpp:94`,
`/repo/src/pusher/pusherHC.cpp:81-85`; a negative radicand or a division by zero is `ub`. -/
noncomputable def invGammaNew (s w : ℝ) : Res ℝ :=
  let q := 1/2 * (s + Real.sqrt (s * s + 4 * w))
  if s * s + 4 * w < 0 ∨ q ≤ 0 then .ub else .ok (1 / Real.sqrt q)

/-- Vay pusher, `/repo/src/pusher/pusherVay.cpp:40,53-111`. -/
noncomputable def vay (P : Par) (e b v : Vec3 ℝ) : Res (Vec3 ℝ) :=
  lorenzFactor P.c v.length2 >>= fun gamma =>
  let u := v.smul gamma
  let e := e.smul (2 * P.k)
  let up := u.add e
  let b := b.smul (P.k * P.mu)
  let g := lorenzFactorInv P.c u.length2
  let up : Vec3 ℝ := ⟨up.x + g * (u.y * b.z - u.z * b.y), up.y + g * (u.z * b.x - u.x * b.z),
    up.z + g * (u.x * b.y - u.y * b.x)⟩
  let alpha := 1 + up.length2
  let B2 := b.length2
  let s := alpha - B2
  let us2 := up.dot b ^ 2
  invGammaNew s (B2 + us2) >>= fun alpha =>
  let b := b.smul alpha
  let s := 1 / (1 + b.length2)
  let alpha := up.dot b
  let p : Vec3 ℝ := ⟨s * (up.x + alpha * b.x + b.z * up.y - b.y * up.z),
    s * (up.y + alpha * b.y + b.x * up.z - b.z * up.x),
    s * (up.z + alpha * b.z + b.y * up.x - b.x * up.y)⟩
  .ok (p.smul (lorenzFactorInv P.c p.length2))

/-- Higuera-Cary rotation as written, `/repo/src/pusher/pusherHC.cpp:87-101`; `b` is already multiplied by
the factor of line 87. -/
noncomputable def hcRotate (b um : Vec3 ℝ) : Vec3 ℝ :=
  let b2 := b.mulV b
  let bc : Vec3 ℝ := ⟨b.x * b.y, b.y * b.z, b.z * b.x⟩
  let inv := 1 / (1 + b2.x + b2.y + b2.x)
  ⟨((1 + b2.x - b2.y - b2.z) * um.x + 2 * (bc.x + b.z) * um.y + 2 * (bc.z - b.z) * um.z) * inv,
   (2 * (bc.x - b.z) * um.x + (1 - b2.x + b2.y - b2.z) * um.y + 2 * (bc.y + b.x) * um.z) * inv,
   (2 * (bc.z + b.y) * um.x + 2 * (bc.y - b.x) * um.y + (1 - b2.x - b2.y + b2.z) * um.z) * inv⟩

/-- Higuera-Cary pusher, `/repo/src/pusher/pusherHC.cpp:43,56-114`. -/
noncomputable def hc (P : Par) (e b v : Vec3 ℝ) : Res (Vec3 ℝ) :=
  lorenzFactor P.c v.length2 >>= fun gamma =>
  let u := v.smul gamma
  let e := e.smul P.k
  let um := u.add e
  let gfm2 := 1 + um.length2
  let b := b.smul (P.k * P.mu)
  let B2 := b.length2
  invGammaNew (gfm2 - B2) (B2 + (b.x * um.x + b.y * um.y + b.z * um.z) ^ 2) >>= fun gamma =>
  let up := hcRotate (b.smul gamma) um
  let p := e.add up
  .ok (p.smul (lorenzFactorInv P.c p.length2))

/-- The pushers a build can select, `/repo/configure.ac:227-239`. -/
inductive Kind where
  | boris
  | borisRelativistic
  | borisAdaptive
  | vay
  | hc

/-- One push of a particle's velocity by the selected pusher, `/repo/src/domain.cpp:65-82`. -/
noncomputable def pushV (kind : Kind) (P : Par) (junk : Bool) (e b v : Vec3 ℝ) : Res (Vec3 ℝ) :=
  match kind with
  | .boris => .ok (borisClassic P e b v)
  | .borisRelativistic => borisRel P e b v
  | .borisAdaptive => borisAdaptive P junk e b v
  | .vay => vay P e b v
  | .hc => hc P e b v

/-- One push with the fields of the domain at the particle's position, without external fields:
`/repo/src/pusher/pusherBoris.cpp:44-61,146-148` and the same lines of the other pushers. -/
noncomputable def push (kind : Kind) (P : Par) (junk : Bool) (pi : ℝ) (g : Geom ℝ) (m : Yee.Mem ℝ) (r z : ℝ)
    (v : Vec3 ℝ) : Res (Vec3 ℝ) :=
  Interp.getE pi g m r z >>= fun e => Interp.getH pi g m r z >>= fun b => pushV kind P junk e b v

end Pusher
end Pico
