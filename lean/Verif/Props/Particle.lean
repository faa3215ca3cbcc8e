import Verif.Lemmas.Particle
import Verif.Lemmas.Pusher
import Verif.Lemmas.CurrentPath
import Mathlib.Algebra.Order.Ring.Rat
import Mathlib.Data.Rat.Floor

/-! Properties of moving, reflecting and binding particles. -/

set_option linter.unusedSectionVars false
set_option linter.unusedSimpArgs false
set_option linter.unusedVariables false

namespace Pico
namespace Part

section
variable {K : Type _} [Field K] [LinearOrder K] [IsStrictOrderedRing K] [FloorRing K]

/-! ### C29 -/

/-- Radial walls of a domain, in coordinates relative to its corner: half a cell inside its borders. -/
def wallsR (g : Geom K) (w : Walls) : Option K × Option K :=
  (wallAt w.r0 (g.dr / 2), wallAt w.r1 (g.nr * g.dr - g.dr / 2))
/-- Axial walls. -/
def wallsZ (g : Geom K) (w : Walls) : Option K × Option K :=
  (wallAt w.z0 (g.dz / 2), wallAt w.z1 (g.nz * g.dz - g.dz / 2))

/-- C29, for particles whose local coordinates do not become exactly zero, in a domain of more than one cell
between opposite walls: the loop terminates with exactly one result; it lies between the walls; position and
velocity are mirror images in the walls, component by component; everything else is unchanged; a particle
that is between the walls already is not touched. -/
theorem C29_reflect_partial {g : Geom K} (G : g.Good) (hn1 : 1 ≤ g.nr) (hn2 : 1 ≤ g.nz) (w : Walls) (p : Part K)
    (h1 : 2 ≤ g.nr ∨ ¬ (w.r0 = true ∧ w.r1 = true)) (h2 : 2 ≤ g.nz ∨ ¬ (w.z0 = true ∧ w.z1 = true))
    (hr : Normal (g.nr * g.dr - g.dr / 2) w.r0 w.r1 (p.posR - g.r0 * g.dr))
    (hz : Normal (g.nz * g.dz - g.dz / 2) w.z0 w.z1 (p.posZ - g.z0 * g.dz)) :
    ∃ q, Reflect g w p q ∧ (∀ q', Reflect g w p q' → q' = q) ∧
      Between (wallsR g w).1 (wallsR g w).2 (q.posR - g.r0 * g.dr) ∧
      Between (wallsZ g w).1 (wallsZ g w).2 (q.posZ - g.z0 * g.dz) ∧
      Mirrored (wallsR g w).1 (wallsR g w).2 (p.posR - g.r0 * g.dr, p.velR) (q.posR - g.r0 * g.dr, q.velR) ∧
      Mirrored (wallsZ g w).1 (wallsZ g w).2 (p.posZ - g.z0 * g.dz, p.velZ) (q.posZ - g.z0 * g.dz, q.velZ) ∧
      q = { p with posR := q.posR, posZ := q.posZ, velR := q.velR, velZ := q.velZ } ∧
      (Between (wallsR g w).1 (wallsR g w).2 (p.posR - g.r0 * g.dr) →
       Between (wallsZ g w).1 (wallsZ g w).2 (p.posZ - g.z0 * g.dz) → q = p) := by
  have dr := G.dr
  have dz := G.dz
  have lr : g.dr / 2 < g.nr * g.dr - g.dr / 2 ∨ ¬ (w.r0 = true ∧ w.r1 = true) := by
    rcases h1 with h | h
    · left
      have : (2 : K) ≤ g.nr := by exact_mod_cast h
      nlinarith
    · exact Or.inr h
  have lz : g.dz / 2 < g.nz * g.dz - g.dz / 2 ∨ ¬ (w.z0 = true ∧ w.z1 = true) := by
    rcases h2 with h | h
    · left
      have : (2 : K) ≤ g.nz := by exact_mod_cast h
      nlinarith
    · exact Or.inr h
  obtain ⟨n1, e1⟩ := settle lr (p.posR - g.r0 * g.dr) p.velR
  obtain ⟨n2, e2⟩ := settle lz (p.posZ - g.z0 * g.dz) p.velZ
  obtain ⟨t, m, hw, tr, tz, ir, iz⟩ := reflect_loop g w G hn1 hn2 (max n1 n2)
    ⟨p.posR - g.r0 * g.dr, p.posZ - g.z0 * g.dz, p.velR, p.velZ⟩ hr hz
    (settled_stays n1 _ e1 (le_max_left _ _)) (settled_stays n2 _ e2 (le_max_right _ _))
  have ar : t.r + g.r0 * g.dr - g.r0 * g.dr = t.r := by ring
  have az : t.z + g.z0 * g.dz - g.z0 * g.dz = t.z := by ring
  refine ⟨{ p with posR := t.r + g.r0 * g.dr, posZ := t.z + g.z0 * g.dz, velR := t.vr, velZ := t.vz }, ⟨t, hw, rfl⟩, ?_, ?_, ?_, ?_, ?_, rfl, ?_⟩
  · rintro q' ⟨t', hw', rfl⟩
    rw [hw'.det hw]
  · dsimp only; rw [ar]; exact between_of_out ir
  · dsimp only; rw [az]; exact between_of_out iz
  · dsimp only; rw [ar, tr]; exact mirrored_iter _ _
  · dsimp only; rw [az, tz]; exact mirrored_iter _ _
  · intro b1 b2
    have o1 := out_of_between b1
    have o2 := out_of_between b2
    have c : reflCond g w ⟨p.posR - g.r0 * g.dr, p.posZ - g.z0 * g.dz, p.velR, p.velZ⟩ = false := by
      rw [cond_eq]; dsimp only; rw [o1, o2]; simp
    rw [hw.det (.done c)]
    simp

/-- Mirror images keep the square of the velocity. -/
theorem mirrored_sq {lo hi : Option K} {a b : K × K} (h : Mirrored lo hi a b) : b.2 = a.2 ∨ b.2 = -a.2 := by
  induction h with
  | refl => exact Or.inl rfl
  | low _ _ _ ih =>
    rcases ih with k | k
    · right; show - _ = _; exact congrArg _ k
    · left; dsimp only at k ⊢; rw [k, neg_neg]
  | high _ _ _ ih =>
    rcases ih with k | k
    · right; show - _ = _; exact congrArg _ k
    · left; dsimp only at k ⊢; rw [k, neg_neg]

theorem while_vel {g : Geom K} {w : Walls} {s t : Refl K} (h : While (reflCond g w) (reflBody g w) s t) :
    (t.vr = s.vr ∨ t.vr = -s.vr) ∧ (t.vz = s.vz ∨ t.vz = -s.vz) := by
  induction h with
  | done => exact ⟨Or.inl rfl, Or.inl rfl⟩
  | @step s t _ _ ih =>
    have a := mirrored_sq (mirrored_step (lo := g.dr / 2) (hi := g.nr * g.dr - g.dr / 2) (wl := w.r0) (wh := w.r1) (s.r, s.vr))
    have b := mirrored_sq (mirrored_step (lo := g.dz / 2) (hi := g.nz * g.dz - g.dz / 2) (wl := w.z0) (wh := w.z1) (s.z, s.vz))
    rw [← body_r] at a
    rw [← body_z] at b
    dsimp only at a b
    constructor
    · rcases a with k | k <;> rcases ih.1 with l | l <;> rw [l, k] <;> simp
    · rcases b with k | k <;> rcases ih.2 with l | l <;> rw [l, k] <;> simp

/-- C74: whatever the loop does (if it ends), no velocity component changes other than by sign, so the kinetic
energy stays the same. -/
theorem C74_energy {g : Geom K} {w : Walls} {p q : Part K} (h : Reflect g w p q) :
    (q.velR = p.velR ∨ q.velR = -p.velR) ∧ (q.velZ = p.velZ ∨ q.velZ = -p.velZ) ∧ q.velPhi = p.velPhi ∧
    q.velR ^ 2 + q.velPhi ^ 2 + q.velZ ^ 2 = p.velR ^ 2 + p.velPhi ^ 2 + p.velZ ^ 2 := by
  obtain ⟨s, hw, rfl⟩ := h
  obtain ⟨a, b⟩ := while_vel hw
  dsimp only at a b ⊢
  refine ⟨a, b, rfl, ?_⟩
  rcases a with a | a <;> rcases b with b | b <;> rw [a, b] <;> ring

/-- C29 fails: a particle with a local coordinate of exactly zero (on the axis, on the left border of a domain)
is not reflected at all, even if it is beyond a wall. -/
theorem C29_zero_fails {g : Geom K} (w : Walls) (p : Part K)
    (h : p.posR - g.r0 * g.dr = 0 ∨ p.posZ - g.z0 * g.dz = 0) : ∀ q, Reflect g w p q ↔ q = p := by
  have c : reflCond g w ⟨p.posR - g.r0 * g.dr, p.posZ - g.z0 * g.dz, p.velR, p.velZ⟩ = false := by
    unfold reflCond
    rcases h with h | h <;> simp [h]
  intro q
  constructor
  · rintro ⟨s, hw, rfl⟩
    rw [hw.det (.done c)]
    simp
  · rintro rfl
    exact ⟨_, .done c, by simp⟩

/-- C29 fails: between two radial walls with a single cell the loop never ends for a particle that is off the
middle of the cell. -/
theorem C29_one_cell_diverges {g : Geom K} (G : g.Good) (w : Walls) (p : Part K) (hn : g.nr = 1) (hw0 : w.r0 = true)
    (hw1 : w.r1 = true) (hz : Between (wallsZ g w).1 (wallsZ g w).2 (p.posZ - g.z0 * g.dz))
    (hz0 : p.posZ - g.z0 * g.dz ≠ 0) (hr : g.dr / 2 < p.posR - g.r0 * g.dr) : ¬ ∃ q, Reflect g w p q := by
  rintro ⟨q, s, hw, _⟩
  refine While.diverges (fun s => g.dr / 2 < s.r ∧ s.z ≠ 0 ∧ out (g.dz / 2) (g.nz * g.dz - g.dz / 2) w.z0 w.z1 s.z = false)
    ?_ ?_ hw
  · rintro s ⟨a, b, c⟩
    have dr := G.dr
    have wall : (g.nr : K) * g.dr - g.dr / 2 = g.dr / 2 := by rw [hn]; push_cast; ring
    have nz : s.r ≠ 0 := by linarith
    constructor
    · rw [cond_eq, c, wall]
      unfold out
      simp [a, hw1, b, nz]
    · have e1 := body_r g w s
      have e2 := body_z g w s
      rw [cstep_in (by exact c)] at e2
      rw [wall, hw0, hw1] at e1
      have k : cstep (g.dr / 2) (g.dr / 2) true true (s.r, s.vr) = (s.r, s.vr) := by
        have k1 : g.dr / 2 * 2 - s.r < g.dr / 2 := by linarith
        have k2 : 2 * (g.dr / 2) - (g.dr / 2 * 2 - s.r) = s.r := by ring
        unfold cstep
        simp only [a, k1, decide_true, Bool.and_true, if_true, k2, neg_neg]
      rw [k] at e1
      have r1 : (reflBody g w s).r = s.r := congrArg Prod.fst e1
      have z1 : (reflBody g w s).z = s.z := congrArg Prod.fst e2
      show g.dr / 2 < (reflBody g w s).r ∧ (reflBody g w s).z ≠ 0 ∧ out _ _ _ _ (reflBody g w s).z = false
      rw [r1, z1]
      exact ⟨a, b, c⟩
  · exact ⟨hr, hz0, out_of_between hz⟩

/-- C74 for beam particles: at the axis wall they are mirrored at half a cell, otherwise untouched. -/
theorem C74_beam {g : Geom K} (w : Walls) (p : Part K) :
    let q := beamReflect g w p
    (w.r0 = true → g.dr / 2 ≤ q.posR - g.r0 * g.dr) ∧
    Mirrored (wallAt w.r0 (g.dr / 2)) none (p.posR - g.r0 * g.dr, p.velR) (q.posR - g.r0 * g.dr, q.velR) ∧
    q = { p with posR := q.posR, velR := q.velR } ∧
    (Between (wallAt w.r0 (g.dr / 2)) none (p.posR - g.r0 * g.dr) → q = p) := by
  intro q
  show _ ∧ _ ∧ _ ∧ _
  by_cases c : p.posR - g.r0 * g.dr < g.dr / 2 ∧ w.r0 = true
  · have e : q = { p with posR := g.dr - (p.posR - g.r0 * g.dr) + g.r0 * g.dr, velR := -p.velR } := by
      show beamReflect g w p = _
      unfold beamReflect
      rw [if_pos (by simp [c.1, c.2])]
    rw [e]
    dsimp only
    have a : g.dr - (p.posR - g.r0 * g.dr) + g.r0 * g.dr - g.r0 * g.dr = g.dr / 2 - (p.posR - g.r0 * g.dr - g.dr / 2) := by ring
    refine ⟨fun _ => by linarith [c.1], ?_, rfl, ?_⟩
    · rw [a]
      exact .low (.refl _) (by simp [wallAt, c.2]) c.1
    · intro b
      have := b.1 (g.dr / 2) (by simp [wallAt, c.2])
      exact absurd c.1 (not_lt.mpr this)
  · have e : q = p := by
      show beamReflect g w p = _
      unfold beamReflect
      rw [if_neg (by simpa using c)]
    rw [e]
    refine ⟨fun h => ?_, .refl _, rfl, fun _ => rfl⟩
    by_contra k
    exact c ⟨not_le.mp k, h⟩

/-! ### C35 -/

/-- C35 for positions that are not negative: the stored cell contains the position. -/
theorem C35_bind_partial {g : Geom K} (hdr : 0 < g.dr) (hdz : 0 < g.dz) (p : Part K) (h1 : 0 ≤ p.posR) (h2 : 0 ≤ p.posZ)
    (h3 : p.posR < 2 ^ 31 * g.dr) (h4 : p.posZ < 2 ^ 31 * g.dz) :
    ∃ q, bindCell g p = .ok q ∧ q = { p with cellR := q.cellR, cellZ := q.cellZ } ∧
      q.cellR * g.dr ≤ q.posR ∧ q.posR < (q.cellR + 1) * g.dr ∧
      q.cellZ * g.dz ≤ q.posZ ∧ q.posZ < (q.cellZ + 1) * g.dz := by
  have key : ∀ {d x : K}, 0 < d → 0 ≤ x → x < 2 ^ 31 * d → ∃ n : Nat, cellNumber x d = .ok (n : Int) ∧ n < 2 ^ 31 ∧
      n * d ≤ x ∧ x < (n + 1) * d := by
    intro d x hd hx hx2
    have f0 : 0 ≤ ⌊x / d⌋ := Int.floor_nonneg.mpr (by positivity)
    have f1 : ⌊x / d⌋ < 2 ^ 31 := by
      rw [Int.floor_lt, div_lt_iff₀ hd]; norm_num at hx2 ⊢; exact hx2
    obtain ⟨n, hn⟩ := Int.eq_ofNat_of_zero_le f0
    refine ⟨n, ?_, ?_, ?_, ?_⟩
    · unfold cellNumber; dsimp only; rw [hn, if_pos]
      constructor
      · have : (0 : Int) ≤ n := Int.natCast_nonneg n; linarith [show (-2 ^ 31 : Int) ≤ 0 by norm_num]
      · rw [hn] at f1; exact f1
    · rw [hn] at f1; exact_mod_cast f1
    · have := (VB.floor_cell hd x).1; rw [hn] at this; exact_mod_cast this
    · have := (VB.floor_cell hd x).2; rw [hn] at this; exact_mod_cast this
  obtain ⟨a, ea, a1, a2, a3⟩ := key hdr h1 h3
  obtain ⟨b, eb, b1, b2, b3⟩ := key hdz h2 h4
  have sz : ∀ n : Nat, n < 2 ^ 31 → toSizeT (n : Int) = n := by
    intro n hn
    unfold toSizeT
    rw [Int.emod_eq_of_lt (Int.natCast_nonneg n) (by exact_mod_cast hn.trans (by norm_num))]
    rfl
  refine ⟨{ p with cellR := a, cellZ := b }, ?_, rfl, a2, a3, b2, b3⟩
  unfold bindCell
  rw [ea, Res.ok_bind, eb, Res.ok_bind, sz a a1, sz b b1]

/-- C35 fails for negative positions: the cell number wraps around to a huge one, so the stored cell does not
contain the position. -/
theorem C35_negative_fails {g : Geom K} (hdr : 0 < g.dr) (p q : Part K) (h1 : p.posR < 0) (hb : bindCell g p = .ok q) :
    (q.cellR : Int) = 2 ^ 64 + ⌊p.posR / g.dr⌋ ∧ q.posR < q.cellR * g.dr := by
  unfold bindCell cellNumber at hb
  dsimp only at hb
  split at hb
  · next hr =>
    rw [Res.ok_bind] at hb
    split at hb
    · rw [Res.ok_bind] at hb
      cases hb
      have neg : ⌊p.posR / g.dr⌋ < 0 := by
        rw [Int.floor_lt]; push_cast; exact div_neg_of_neg_of_pos h1 hdr
      have e : ((toSizeT ⌊p.posR / g.dr⌋ : Nat) : Int) = 2 ^ 64 + ⌊p.posR / g.dr⌋ := by
        unfold toSizeT
        have h31 := hr.1
        norm_num at h31
        rw [Int.toNat_of_nonneg (Int.emod_nonneg _ (by norm_num))]
        have : ⌊p.posR / g.dr⌋ % 2 ^ 64 = (⌊p.posR / g.dr⌋ + 2 ^ 64) % 2 ^ 64 := by simp
        rw [this, Int.emod_eq_of_lt]
        · ring
        · norm_num; linarith
        · linarith
      refine ⟨e, ?_⟩
      dsimp only
      have : (0 : K) ≤ ((toSizeT ⌊p.posR / g.dr⌋ : Nat) : K) * g.dr := by positivity
      linarith
    · exact absurd hb nofun
  · exact absurd hb nofun
end

/-! ### C30 -/

/-- C30, as far as it holds: the radius becomes the distance from the axis, z and everything else but the
velocity is kept, and the rotation keeps the length of the velocity (for every particle off the axis). -/
theorem C30_position_partial (p : Part ℝ) (h : p.posR ≠ 0 ∨ p.posPhi ≠ 0) :
    ∃ a, backPos p = .ok a ∧ 0 < a.posR ∧ a.posR ^ 2 = p.posR ^ 2 + p.posPhi ^ 2 ∧ a.posPhi = 0 ∧
      a = { p with posR := a.posR, posPhi := 0, sin := a.sin } ∧ a.sin * a.posR = p.posPhi ∧
      (backVel a).posR = a.posR ∧ (backVel a).posZ = p.posZ ∧ (backVel a).velZ = p.velZ ∧
      (backVel a).velR ^ 2 + (backVel a).velPhi ^ 2 = p.velR ^ 2 + p.velPhi ^ 2 := by
  have hpos : 0 < p.posR * p.posR + p.posPhi * p.posPhi := by
    rcases h with h | h
    · have := mul_self_pos.mpr h; have := mul_self_nonneg p.posPhi; linarith
    · have := mul_self_pos.mpr h; have := mul_self_nonneg p.posR; linarith
  set r := Real.sqrt (p.posR * p.posR + p.posPhi * p.posPhi) with hr
  have r0 : 0 < r := Real.sqrt_pos.mpr hpos
  have r2 : r ^ 2 = p.posR * p.posR + p.posPhi * p.posPhi := Real.sq_sqrt hpos.le
  refine ⟨{ p with sin := p.posPhi / r, posR := r, posPhi := 0 }, ?_, r0, by dsimp only; rw [r2]; ring, rfl, rfl, ?_, rfl, rfl, rfl, ?_⟩
  · unfold backPos
    dsimp only
    rw [if_neg r0.ne']
  · dsimp only
    exact div_mul_cancel₀ _ r0.ne'
  · unfold backVel
    dsimp only
    have s1 : 0 ≤ 1 - p.posPhi / r * (p.posPhi / r) := by
      rw [div_mul_div_comm, sub_nonneg, div_le_one (by positivity)]
      nlinarith [mul_self_nonneg p.posR]
    have c2 := Real.sq_sqrt s1
    set c := Real.sqrt (1 - p.posPhi / r * (p.posPhi / r))
    linear_combination (p.velR ^ 2 + p.velPhi ^ 2) * c2

/-- C30, the motion itself: a particle that starts in the r-z plane ends at the distance from the axis and at the
axial position of the straight line, with its axial velocity unchanged. -/
theorem C30_move_partial (p : Part ℝ) (dt : ℝ) (hphi : p.posPhi = 0) (h : p.posR + p.velR * dt ≠ 0 ∨ p.velPhi * dt ≠ 0) :
    ∃ a, backPos (p.move dt) = .ok a ∧
      (backVel a).posR = Real.sqrt ((p.posR + p.velR * dt) ^ 2 + (p.velPhi * dt) ^ 2) ∧ (backVel a).posPhi = 0 ∧
      (backVel a).posZ = p.posZ + p.velZ * dt ∧ (backVel a).velZ = p.velZ ∧
      (backVel a).velR ^ 2 + (backVel a).velPhi ^ 2 = p.velR ^ 2 + p.velPhi ^ 2 := by
  have e1 : (p.move dt).posR = p.posR + p.velR * dt := rfl
  have e2 : (p.move dt).posPhi = p.velPhi * dt := by show p.posPhi + _ = _; rw [hphi, zero_add]
  obtain ⟨a, ha, a0, a2, aphi, _, _, b1, b2, b3, b4⟩ := C30_position_partial (p.move dt) (by rw [e1, e2]; exact h)
  refine ⟨a, ha, ?_, aphi, b2, b3, b4⟩
  rw [b1, ← Real.sqrt_sq a0.le, a2, e1, e2]

/-- C30 fails: a free particle that starts in the r-z plane does not move along a straight line.  The distance
from the axis of the straight line motion changes at the rate `(x v_x + y v_y) / r`; the radial velocity the
code computes is too small by `2 v_phi^2 dt / r`, for every particle with an azimuthal velocity that does not
pass behind the axis. -/
theorem C30_straight_line_fails (p : Part ℝ) (dt : ℝ) (hphi : p.posPhi = 0) (hr : 0 < p.posR + p.velR * dt)
    (hv : p.velPhi ≠ 0) (hdt : 0 < dt) :
    ∃ a, backPos (p.move dt) = .ok a ∧
      let x := p.posR + p.velR * dt
      let y := p.velPhi * dt
      a.posR = Real.sqrt (x ^ 2 + y ^ 2) ∧
      (backVel a).velR * a.posR = (x * p.velR + y * p.velPhi) - 2 * p.velPhi ^ 2 * dt ∧
      (backVel a).velR * a.posR ≠ x * p.velR + y * p.velPhi := by
  have hm : (p.move dt).posR = p.posR + p.velR * dt := rfl
  have hm2 : (p.move dt).posPhi = p.velPhi * dt := by show p.posPhi + _ = _; rw [hphi, zero_add]
  set x := p.posR + p.velR * dt with hx
  set y := p.velPhi * dt with hy
  have hpos : 0 < x * x + y * y := by have := mul_self_nonneg y; positivity
  set r := Real.sqrt (x * x + y * y) with hrr
  have r0 : 0 < r := Real.sqrt_pos.mpr hpos
  have r2 : r ^ 2 = x * x + y * y := Real.sq_sqrt hpos.le
  have main : (backVel { p.move dt with sin := y / r, posR := r, posPhi := 0 }).velR * r =
      (x * p.velR + y * p.velPhi) - 2 * p.velPhi ^ 2 * dt := by
    unfold backVel
    dsimp only
    have s : Real.sqrt (1 - y / r * (y / r)) = x / r := by
      have : 1 - y / r * (y / r) = (x / r) ^ 2 := by
        rw [div_pow, r2]
        have : x * x + y * y ≠ 0 := hpos.ne'
        rw [div_mul_div_comm, ← pow_two r, r2]
        field_simp
        ring
      rw [this, Real.sqrt_sq (by positivity)]
    rw [s]
    have e1 : (p.move dt).velR = p.velR := rfl
    have e2 : (p.move dt).velPhi = p.velPhi := rfl
    rw [e1, e2]
    have : (x / r * p.velR - y / r * p.velPhi) * r = x * p.velR - y * p.velPhi := by field_simp
    rw [this, hy]
    ring
  refine ⟨{ p.move dt with sin := y / r, posR := r, posPhi := 0 }, ?_, ?_, main, ?_⟩
  · unfold backPos
    dsimp only
    rw [hm, hm2, ← hrr, if_neg r0.ne']
  · dsimp only; rw [hrr]; congr 1; ring
  · have main' := main
    intro k
    dsimp only at k
    rw [main'] at k
    have : 0 < p.velPhi ^ 2 * dt := by positivity
    linarith

/-- C30 fails on the axis: the code divides by zero. -/
theorem C30_axis_division (p : Part ℝ) (h1 : p.posR = 0) (h2 : p.posPhi = 0) : backPos p = .ub := by
  unfold backPos
  dsimp only
  rw [h1, h2]
  simp

/-- C30 fails behind the axis: a particle whose radial coordinate became negative is rotated as if it were on
the other side, so a motion along a line through the axis keeps its inward velocity. -/
theorem C30_behind_axis_fails (p : Part ℝ) (h1 : p.posR < 0) (h2 : p.posPhi = 0) (hv : p.velR < 0) :
    ∃ a, backPos p = .ok a ∧ a.posR = -p.posR ∧ (backVel a).velR = p.velR := by
  have e : Real.sqrt (p.posR * p.posR + p.posPhi * p.posPhi) = -p.posR := by
    rw [h2, mul_zero, add_zero, ← neg_mul_neg, Real.sqrt_mul_self (by linarith)]
  refine ⟨{ p with sin := p.posPhi / -p.posR, posR := -p.posR, posPhi := 0 }, ?_, rfl, ?_⟩
  · unfold backPos
    dsimp only
    rw [e, if_neg (by linarith)]
  · unfold backVel
    dsimp only
    rw [h2]
    simp

/-! ### The whole advance of one particle -/

/-- After the advance of a particle next to the axis wall it is at least half a cell away from the axis, which
the field interpolation needs (C23), unless its local z coordinate became exactly zero; its stored cell contains
it. -/
theorem C29_advance_partial {g : Geom ℝ} (G : g.Good) (hn1 : 1 ≤ g.nr) (hn2 : 1 ≤ g.nz) (w : Walls) (dt : ℝ) (p q : Part ℝ)
    (h1 : 2 ≤ g.nr ∨ ¬ (w.r0 = true ∧ w.r1 = true)) (h2 : 2 ≤ g.nz ∨ ¬ (w.z0 = true ∧ w.z1 = true))
    (h0 : g.r0 = 0) (hw : w.r0 = true) (hz : Normal (g.nz * g.dz - g.dz / 2) w.z0 w.z1 ((p.move dt).posZ - g.z0 * g.dz))
    (h : Advance dt g w p q) : g.dr / 2 ≤ q.posR ∧ q.oldR = p.posR ∧ q.oldZ = p.posZ := by
  obtain ⟨a, b, ha, hb, hq⟩ := h
  have posA : 0 < a.posR ∧ a.posZ = (p.move dt).posZ ∧ a.oldR = p.posR ∧ a.oldZ = p.posZ := by
    unfold backPos at ha
    dsimp only at ha
    split at ha
    · exact absurd ha nofun
    · next k =>
      cases ha
      exact ⟨lt_of_le_of_ne (Real.sqrt_nonneg _) (Ne.symm k), rfl, rfl, rfl⟩
  obtain ⟨c, hc, uniq, br, bz, _, _, ce, _⟩ := C29_reflect_partial G hn1 hn2 w a h1 h2
    ⟨by rw [h0]; have := posA.1; push_cast; linarith, Or.inl hw⟩ (by rw [posA.2.1]; exact hz)
  have eb := uniq b hb
  rw [eb] at hq
  have lo := br.1 (g.dr / 2) (by simp [wallsR, wallAt, hw])
  rw [h0] at lo
  have q1 : q.posR = c.posR ∧ q.oldR = c.oldR ∧ q.oldZ = c.oldZ := by
    unfold bindCell cellNumber at hq
    dsimp only at hq
    split at hq
    · rw [Res.ok_bind] at hq
      split at hq
      · rw [Res.ok_bind] at hq; cases hq; exact ⟨rfl, rfl, rfl⟩
      · exact absurd hq nofun
    · exact absurd hq nofun
  have c1 : c.oldR = a.oldR ∧ c.oldZ = a.oldZ := by rw [ce]; exact ⟨rfl, rfl⟩
  refine ⟨?_, by rw [q1.2.1, c1.1, posA.2.2.1], by rw [q1.2.2, c1.2, posA.2.2.2]⟩
  rw [q1.1]
  push_cast at lo
  linarith

theorem sin_le_one {s r x y : ℝ} (h0 : 0 < r) (h1 : s * r = y) (h2 : r ^ 2 = x ^ 2 + y ^ 2) : 0 ≤ 1 - s * s := by
  have k : (s * r) ^ 2 ≤ r ^ 2 := by rw [h1, h2]; have := sq_nonneg x; linarith
  rw [mul_pow] at k
  have : s ^ 2 ≤ 1 := by
    by_contra h
    have h := not_le.mp h
    have : 1 * r ^ 2 < s ^ 2 * r ^ 2 := mul_lt_mul_of_pos_right h (by positivity)
    linarith
  linarith [pow_two s]

/-- A closed chamber simulated by one domain: every particle off the axis whose z coordinate does not become
exactly zero after its move is advanced, in exactly one way, to a point between
the walls, keeps its speed, and is bound to the cell that contains it. -/
theorem C29_chamber_partial {g : Geom ℝ} (G : g.Good) (hn1 : 2 ≤ g.nr) (hn2 : 2 ≤ g.nz) (h0 : g.r0 = 0) (hz0 : g.z0 = 0)
    (dt : ℝ) (p : Part ℝ) (hax : (p.move dt).posR ≠ 0 ∨ (p.move dt).posPhi ≠ 0) (hz : (p.move dt).posZ ≠ 0) :
    ∃ q, Advance dt g ⟨true, true, true, true⟩ p q ∧ (∀ q', Advance dt g ⟨true, true, true, true⟩ p q' → q' = q) ∧
      g.dr / 2 ≤ q.posR ∧ q.posR ≤ g.nr * g.dr - g.dr / 2 ∧ g.dz / 2 ≤ q.posZ ∧ q.posZ ≤ g.nz * g.dz - g.dz / 2 ∧
      q.velR ^ 2 + q.velPhi ^ 2 + q.velZ ^ 2 = p.velR ^ 2 + p.velPhi ^ 2 + p.velZ ^ 2 ∧
      q.cellR * g.dr ≤ q.posR ∧ q.posR < (q.cellR + 1) * g.dr ∧ q.cellZ * g.dz ≤ q.posZ ∧ q.posZ < (q.cellZ + 1) * g.dz ∧
      q.oldR = p.posR ∧ q.oldPhi = p.posPhi ∧ q.oldZ = p.posZ ∧ q.weight = p.weight ∧ q.posPhi = 0 := by
  obtain ⟨a, ha, a0, a2, aphi, ae, asin, _, _, _, _⟩ := C30_position_partial (p.dumpOld.move dt) hax
  have az : a.posZ = (p.move dt).posZ := by rw [ae]; rfl
  obtain ⟨b, hb, ub, br, bz, _, _, be, _⟩ := C29_reflect_partial G (by omega) (by omega) ⟨true, true, true, true⟩ a
    (Or.inl hn1) (Or.inl hn2) ⟨by rw [h0]; push_cast; linarith, Or.inl rfl⟩
    ⟨by rw [hz0, az]; push_cast; simpa using hz, Or.inl rfl⟩
  have ene := (C74_energy hb).2.2.2
  have r1 := br.1 (g.dr / 2) rfl
  have r2 := br.2 (g.nr * g.dr - g.dr / 2) rfl
  have z1 := bz.1 (g.dz / 2) rfl
  have z2 := bz.2 (g.nz * g.dz - g.dz / 2) rfl
  have dr := G.dr
  have dz := G.dz
  rw [h0] at r1 r2
  rw [hz0] at z1 z2
  push_cast at r1 r2 z1 z2
  have nr : (g.nr : ℝ) ≤ 2 ^ 31 := by have := G.nr; exact_mod_cast (by omega : g.nr ≤ 2 ^ 31)
  have nz : (g.nz : ℝ) ≤ 2 ^ 31 := by have := G.nz; exact_mod_cast (by omega : g.nz ≤ 2 ^ 31)
  have nr' := mul_le_mul_of_nonneg_right nr dr.le
  have nz' := mul_le_mul_of_nonneg_right nz dz.le
  have pr : (backVel b).posR = b.posR := rfl
  have pz : (backVel b).posZ = b.posZ := rfl
  obtain ⟨q, hq, qe, c1, c2, c3, c4⟩ := C35_bind_partial dr dz (backVel b) (by rw [pr]; linarith) (by rw [pz]; linarith)
    (by rw [pr]; linarith) (by rw [pz]; linarith)
  have qr : q.posR = b.posR := by rw [qe]; rfl
  have qz : q.posZ = b.posZ := by rw [qe]; rfl
  have qv : q.velR = (backVel b).velR ∧ q.velPhi = (backVel b).velPhi ∧ q.velZ = b.velZ := by
    rw [qe]; exact ⟨rfl, rfl, rfl⟩
  have bs : b.sin = a.sin := by rw [be]
  have sq : (backVel b).velR ^ 2 + (backVel b).velPhi ^ 2 = b.velR ^ 2 + b.velPhi ^ 2 := by
    have s1 : 0 ≤ 1 - b.sin * b.sin := by
      rw [bs]
      exact sin_le_one a0 asin a2
    have c2 := Real.sq_sqrt s1
    unfold backVel
    dsimp only
    generalize Real.sqrt (1 - b.sin * b.sin) = c at c2 ⊢
    linear_combination (b.velR ^ 2 + b.velPhi ^ 2) * c2
  have av : a.velR = p.velR ∧ a.velPhi = p.velPhi ∧ a.velZ = p.velZ := by rw [ae]; exact ⟨rfl, rfl, rfl⟩
  have fields : q.oldR = p.posR ∧ q.oldPhi = p.posPhi ∧ q.oldZ = p.posZ ∧ q.weight = p.weight ∧ q.posPhi = 0 := by
    rw [qe, be, ae]; exact ⟨rfl, rfl, rfl, rfl, rfl⟩
  refine ⟨q, ⟨a, b, ha, hb, hq⟩, ?_, by rw [qr]; linarith, by rw [qr]; linarith, by rw [qz]; linarith, by rw [qz]; linarith, ?_,
    c1, c2, c3, c4, fields⟩
  · rintro q' ⟨a', b', ha', hb', hq'⟩
    rw [ha] at ha'
    cases ha'
    rw [ub b' hb', hq] at hq'
    cases hq'
    rfl
  · rw [qv.1, qv.2.1, qv.2.2, sq, ene, av.1, av.2.1, av.2.2]

/-! ### Concrete cases -/

def exGR : Geom ℚ := ⟨1/2, 1/3, 0, 0, 4, 6⟩
theorem exGR_good : exGR.Good := ⟨by decide +kernel, by decide +kernel, by decide, by decide⟩
def exW : Walls := ⟨true, true, true, true⟩
def exPart {K : Type} [Field K] (r z vr vz : K) : Part K := ⟨r, 0, z, 0, 0, 0, vr, 1, vz, 1, 0, 0, 0, 0, 0⟩

/-- A particle far beyond the outer wall: six mirror images. -/
example := C29_reflect_partial exGR_good (by decide) (by decide) exW (exPart 11 (-7) 3 (-4)) (Or.inl (by decide)) (Or.inl (by decide))
  ⟨by decide +kernel, Or.inl rfl⟩ ⟨by decide +kernel, Or.inl rfl⟩
example : (cstep (1/4 : ℚ) (7/4) true true)^[4] (11, 3) = ((3/2 : ℚ), -3) := by
  norm_num [cstep]
example := C29_zero_fails (g := exGR) exW (exPart 0 100 3 4) (Or.inl (by decide +kernel))
example := C29_one_cell_diverges (g := (⟨1/2, 1/3, 0, 0, 1, 6⟩ : Geom ℚ))
  ⟨by decide +kernel, by decide +kernel, by decide, by decide⟩ exW (exPart (1/3) 1 3 4) rfl rfl rfl
  ⟨by intro l h; cases h; decide +kernel, by intro l h; cases h; decide +kernel⟩ (by decide +kernel) (by decide +kernel)
example : beamReflect exGR exW (exPart (1/5) 1 (-3) 4) = exPart (3/10) 1 3 4 := by
  simp [beamReflect, exGR, exW, exPart]; norm_num
example := C35_bind_partial (g := exGR) (by decide +kernel) (by decide +kernel) (exPart (7/5) (8/5) 3 4) (by decide +kernel)
  (by decide +kernel) (by decide +kernel) (by decide +kernel)
theorem exBind : bindCell exGR (exPart (-1/5) (8/5) 3 4) =
    .ok { exPart (-1/5 : ℚ) (8/5) 3 4 with cellR := 2 ^ 64 - 1, cellZ := 4 } := by
  have e1 : ⌊(-1/5 : ℚ) / (1/2)⌋ = -1 := by rw [Int.floor_eq_iff]; norm_num
  have e2 : ⌊(8/5 : ℚ) / (1/3)⌋ = 4 := by rw [Int.floor_eq_iff]; norm_num
  unfold bindCell cellNumber
  simp only [exGR, exPart, e1, e2]
  rfl
example := C35_negative_fails (g := exGR) (by decide +kernel) (exPart (-1/5) (8/5) 3 4) _ (by decide +kernel) exBind
/-- A domain over the reals. -/
noncomputable def exGRr : Geom ℝ := ⟨1/2, 1/3, 0, 0, 4, 6⟩
theorem exGRr_good : exGRr.Good := ⟨by norm_num [exGRr], by norm_num [exGRr], by decide, by decide⟩
example := C29_chamber_partial exGRr_good (by decide) (by decide) rfl rfl 1 (exPart 11 (-7) 3 (-4))
  (Or.inl (by norm_num [exPart, move])) (by norm_num [exPart, move])
example : ∃ q, Advance 1 exGRr ⟨true, true, true, true⟩ (exPart 11 (-7) 3 (-4)) q ∧ exGRr.dr / 2 ≤ q.posR := by
  obtain ⟨q, h, _⟩ := C29_chamber_partial exGRr_good (by decide) (by decide) rfl rfl 1 (exPart 11 (-7) 3 (-4))
    (Or.inl (by norm_num [exPart, move])) (by norm_num [exPart, move])
  exact ⟨q, h, (C29_advance_partial exGRr_good (by decide) (by decide) _ 1 _ _ (Or.inl (by decide)) (Or.inl (by decide)) rfl rfl
    ⟨by norm_num [exPart, move, exGRr], Or.inl rfl⟩ h).1⟩
example := C30_move_partial (exPart 3 1 1 2) 1 rfl (Or.inl (by norm_num [exPart]))
example := C30_position_partial ⟨3, 4, 1, 0, 0, 0, 1, 2, 3, 1, 0, 0, 0, 0, 0⟩ (Or.inl (by norm_num))
example := C30_straight_line_fails (exPart 3 1 1 2) 1 rfl (by norm_num [exPart]) (by norm_num [exPart]) (by norm_num)
example := C30_behind_axis_fails (exPart (-1) 1 (-2) 2) (by norm_num [exPart]) rfl (by norm_num [exPart])

end Part
end Pico
