import Verif.Lemmas.Particle
import Mathlib.Tactic.Linarith
import Mathlib.Tactic.Ring

/-! The walls as a function, for particles that cross a wall by less than half a cell. -/

namespace Pico
namespace Part

variable {K : Type _} [Field K] [LinearOrder K] [IsStrictOrderedRing K] [FloorRing K]

/-- New coordinate of a particle at `x` between a lower wall at `d / 2` and an upper wall at `R - d / 2`, as far as they exist. -/
def mirX (lo hi : Bool) (d R x : K) : K := if R - d / 2 < x && hi then (R - d / 2) * 2 - x else if x < d / 2 && lo then d - x else x

/-- New velocity. -/
def mirV (lo hi : Bool) (d R x v : K) : K := if R - d / 2 < x && hi then -v else if x < d / 2 && lo then -v else v

theorem mirX_range {lo hi : Bool} {d R x : K} (hd : 0 < d) (hR : 2 * d ≤ R) (h1 : lo = true → -(d / 2) ≤ x) (h2 : hi = true → x ≤ R + d / 2) :
    (lo = true → d / 2 ≤ mirX lo hi d R x) ∧ (hi = true → mirX lo hi d R x ≤ R - d / 2) := by
  unfold mirX
  by_cases c1 : R - d / 2 < x
  · cases hi with
    | true =>
      have := h2 rfl
      rw [if_pos (by simpa using c1)]
      exact ⟨fun _ => by linarith, fun _ => by linarith⟩
    | false =>
      rw [if_neg (by simp)]
      refine ⟨fun hl => ?_, fun h => nomatch h⟩
      rw [if_neg (by simp only [Bool.and_eq_true, decide_eq_true_eq, not_and]; intro h; linarith)]
      linarith
  · rw [if_neg (by simp [c1])]
    have c1 := not_lt.mp c1
    by_cases c2 : x < d / 2
    · cases lo with
      | true =>
        have := h1 rfl
        rw [if_pos (by simpa using c2)]
        exact ⟨fun _ => by linarith, fun _ => by linarith⟩
      | false =>
        rw [if_neg (by simp)]
        exact ⟨fun h => (nomatch h), fun _ => by linarith⟩
    · rw [if_neg (by simp [c2])]
      exact ⟨fun _ => not_lt.mp c2, fun _ => c1⟩

/-- The walls bring a particle nearer to every point between them. -/
theorem mirX_near {lo hi : Bool} {d R x y : K} (hd : 0 < d) (h1 : d / 2 ≤ y) (h2 : y ≤ R - d / 2) {D : K} (h : |x - y| < D) :
    |mirX lo hi d R x - y| < D := by
  rw [abs_lt] at h ⊢
  unfold mirX
  by_cases c1 : R - d / 2 < x
  · cases hi with
    | true =>
      rw [if_pos (by simpa using c1)]
      constructor <;> linarith
    | false =>
      rw [if_neg (by simp), if_neg (by simp only [Bool.and_eq_true, decide_eq_true_eq, not_and]; intro h; linarith)]
      exact h
  · rw [if_neg (by simp [c1])]
    by_cases c2 : x < d / 2
    · cases lo with
      | true =>
        rw [if_pos (by simpa using c2)]
        constructor <;> linarith
      | false =>
        rw [if_neg (by simp)]
        exact h
    · rw [if_neg (by simp [c2])]
      exact h

theorem mirV_sq {lo hi : Bool} {d R x v : K} : mirV lo hi d R x v ^ 2 = v ^ 2 := by
  unfold mirV
  split_ifs <;> ring

/-- Both one dimensional walls, as the body of the loop does them. -/
theorem reflBody_eq (g : Geom K) (w : Walls) (s : Refl K) (hr : 0 < g.dr) (hz : 0 < g.dz) (hR : 2 * g.dr ≤ g.nr * g.dr) (hZ : 2 * g.dz ≤ g.nz * g.dz)
    (r2 : w.r1 = true → s.r ≤ g.nr * g.dr + g.dr / 2) (z2 : w.z1 = true → s.z ≤ g.nz * g.dz + g.dz / 2) :
    reflBody g w s = ⟨mirX w.r0 w.r1 g.dr (g.nr * g.dr) s.r, mirX w.z0 w.z1 g.dz (g.nz * g.dz) s.z,
      mirV w.r0 w.r1 g.dr (g.nr * g.dr) s.r s.vr, mirV w.z0 w.z1 g.dz (g.nz * g.dz) s.z s.vz⟩ := by
  obtain ⟨r, z, vr, vz⟩ := s
  dsimp only at r2 z2 ⊢
  have one : ∀ (lo hi : Bool) (d R x v : K), 0 < d → 2 * d ≤ R → (hi = true → x ≤ R + d / 2) →
      let y := if R - d / 2 < x && hi then (R - d / 2) * 2 - x else x
      let u := if R - d / 2 < x && hi then -v else v
      (if y < d / 2 && lo then (if d - y < d / 2 then d / 2 else d - y) else y) = mirX lo hi d R x ∧
      (if y < d / 2 && lo then -u else u) = mirV lo hi d R x v := by
    intro lo hi d R x v hd hR h2 y u
    unfold mirX mirV
    by_cases c : (R - d / 2 < x && hi) = true
    · have cx := c
      rw [Bool.and_eq_true, decide_eq_true_eq] at cx
      have := h2 cx.2
      have hy : y = (R - d / 2) * 2 - x := if_pos c
      have hu : u = -v := if_pos c
      have : ¬ (y < d / 2 && lo) = true := by
        rw [Bool.and_eq_true, decide_eq_true_eq, hy]
        rintro ⟨k, _⟩
        linarith
      rw [if_neg this, if_neg this, if_pos c, if_pos c]
      exact ⟨hy, hu⟩
    · have hy : y = x := if_neg c
      have hu : u = v := if_neg c
      rw [if_neg c, if_neg c, hy, hu]
      by_cases c2 : (x < d / 2 && lo) = true
      · have cx := c2
        rw [Bool.and_eq_true, decide_eq_true_eq] at cx
        rw [if_pos c2, if_pos c2, if_pos c2, if_neg (by linarith [cx.1])]
        exact ⟨rfl, rfl⟩
      · rw [if_neg c2, if_neg c2, if_neg c2]
        exact ⟨rfl, rfl⟩
  obtain ⟨a1, a2⟩ := one w.r0 w.r1 g.dr (g.nr * g.dr) r vr hr hR r2
  obtain ⟨b1, b2⟩ := one w.z0 w.z1 g.dz (g.nz * g.dz) z vz hz hZ z2
  have s1 : ∀ s : Refl K, reflR1 g w s = ⟨if g.nr * g.dr - g.dr / 2 < s.r && w.r1 then (g.nr * g.dr - g.dr / 2) * 2 - s.r else s.r, s.z,
      if g.nr * g.dr - g.dr / 2 < s.r && w.r1 then -s.vr else s.vr, s.vz⟩ := by
    intro s
    unfold reflR1
    split <;> rfl
  have s2 : ∀ s : Refl K, reflZ1 g w s = ⟨s.r, if g.nz * g.dz - g.dz / 2 < s.z && w.z1 then (g.nz * g.dz - g.dz / 2) * 2 - s.z else s.z,
      s.vr, if g.nz * g.dz - g.dz / 2 < s.z && w.z1 then -s.vz else s.vz⟩ := by
    intro s
    unfold reflZ1
    split <;> rfl
  have s3 : ∀ s : Refl K, reflR0 g w s = ⟨if s.r < g.dr / 2 && w.r0 then (if g.dr - s.r < g.dr / 2 then g.dr / 2 else g.dr - s.r) else s.r, s.z,
      if s.r < g.dr / 2 && w.r0 then -s.vr else s.vr, s.vz⟩ := by
    intro s
    unfold reflR0
    split <;> rfl
  have s4 : ∀ s : Refl K, reflZ0 g w s = ⟨s.r, if s.z < g.dz / 2 && w.z0 then (if g.dz - s.z < g.dz / 2 then g.dz / 2 else g.dz - s.z) else s.z,
      s.vr, if s.z < g.dz / 2 && w.z0 then -s.vz else s.vz⟩ := by
    intro s
    unfold reflZ0
    split <;> rfl
  unfold reflBody
  rw [s1, s2, s3, s4]
  dsimp only
  rw [a1, a2, b1, b2]

/-- The loop of `reflect` ends after at most one pass. -/
theorem reflect_iff (g : Geom K) (w : Walls) (a b : Part K) (hr : 0 < g.dr) (hz : 0 < g.dz) (hR : 2 * g.dr ≤ g.nr * g.dr)
    (hZ : 2 * g.dz ≤ g.nz * g.dz) (r0 : a.posR - g.r0 * g.dr ≠ 0) (z0 : a.posZ - g.z0 * g.dz ≠ 0)
    (r1 : w.r0 = true → -(g.dr / 2) ≤ a.posR - g.r0 * g.dr) (z1 : w.z0 = true → -(g.dz / 2) ≤ a.posZ - g.z0 * g.dz)
    (r2 : w.r1 = true → a.posR - g.r0 * g.dr ≤ g.nr * g.dr + g.dr / 2) (z2 : w.z1 = true → a.posZ - g.z0 * g.dz ≤ g.nz * g.dz + g.dz / 2) :
    Reflect g w a b ↔ b = { a with
      posR := mirX w.r0 w.r1 g.dr (g.nr * g.dr) (a.posR - g.r0 * g.dr) + g.r0 * g.dr
      posZ := mirX w.z0 w.z1 g.dz (g.nz * g.dz) (a.posZ - g.z0 * g.dz) + g.z0 * g.dz
      velR := mirV w.r0 w.r1 g.dr (g.nr * g.dr) (a.posR - g.r0 * g.dr) a.velR
      velZ := mirV w.z0 w.z1 g.dz (g.nz * g.dz) (a.posZ - g.z0 * g.dz) a.velZ } := by
  have key : While (reflCond g w) (reflBody g w) ⟨a.posR - g.r0 * g.dr, a.posZ - g.z0 * g.dz, a.velR, a.velZ⟩
      ⟨mirX w.r0 w.r1 g.dr (g.nr * g.dr) (a.posR - g.r0 * g.dr), mirX w.z0 w.z1 g.dz (g.nz * g.dz) (a.posZ - g.z0 * g.dz),
        mirV w.r0 w.r1 g.dr (g.nr * g.dr) (a.posR - g.r0 * g.dr) a.velR, mirV w.z0 w.z1 g.dz (g.nz * g.dz) (a.posZ - g.z0 * g.dz) a.velZ⟩ := by
    have body := reflBody_eq g w ⟨a.posR - g.r0 * g.dr, a.posZ - g.z0 * g.dz, a.velR, a.velZ⟩ hr hz hR hZ r2 z2
    dsimp only at body
    have q1 := mirX_range hr hR r1 r2
    have q2 := mirX_range hz hZ z1 z2
    have fin : reflCond g w ⟨mirX w.r0 w.r1 g.dr (g.nr * g.dr) (a.posR - g.r0 * g.dr), mirX w.z0 w.z1 g.dz (g.nz * g.dz) (a.posZ - g.z0 * g.dz),
        mirV w.r0 w.r1 g.dr (g.nr * g.dr) (a.posR - g.r0 * g.dr) a.velR, mirV w.z0 w.z1 g.dz (g.nz * g.dz) (a.posZ - g.z0 * g.dz) a.velZ⟩ = false := by
      unfold reflCond
      dsimp only
      have e1 : ((g.nr : K) * g.dr - g.dr / 2 < mirX w.r0 w.r1 g.dr (g.nr * g.dr) (a.posR - g.r0 * g.dr) && w.r1) = false := by
        cases h : w.r1
        · simp
        · have := q1.2 h
          rw [h] at this
          simpa using this
      have e2 : ((g.nz : K) * g.dz - g.dz / 2 < mirX w.z0 w.z1 g.dz (g.nz * g.dz) (a.posZ - g.z0 * g.dz) && w.z1) = false := by
        cases h : w.z1
        · simp
        · have := q2.2 h
          rw [h] at this
          simpa using this
      have e3 : (mirX w.r0 w.r1 g.dr (g.nr * g.dr) (a.posR - g.r0 * g.dr) < g.dr / 2 && w.r0) = false := by
        cases h : w.r0
        · simp
        · have := q1.1 h
          rw [h] at this
          simpa using this
      have e4 : (mirX w.z0 w.z1 g.dz (g.nz * g.dz) (a.posZ - g.z0 * g.dz) < g.dz / 2 && w.z0) = false := by
        cases h : w.z0
        · simp
        · have := q2.1 h
          rw [h] at this
          simpa using this
      rw [e1, e2, e3, e4]
      simp
    cases h : reflCond g w ⟨a.posR - g.r0 * g.dr, a.posZ - g.z0 * g.dz, a.velR, a.velZ⟩ with
    | true =>
      refine .step h ?_
      rw [body]
      exact .done fin
    | false =>
      have all := h
      unfold reflCond at all
      dsimp only at all
      rw [show decide (a.posR - g.r0 * g.dr ≠ 0) = true from decide_eq_true r0, show decide (a.posZ - g.z0 * g.dz ≠ 0) = true from decide_eq_true z0,
        Bool.true_and, Bool.true_and, Bool.or_eq_false_iff, Bool.or_eq_false_iff, Bool.or_eq_false_iff] at all
      obtain ⟨⟨⟨f1, f2⟩, f3⟩, f4⟩ := all
      unfold mirX mirV
      rw [f1, f2, f3, f4]
      exact .done h
  constructor
  · rintro ⟨s, hs, rfl⟩
    rw [hs.det key]
  · rintro rfl
    exact ⟨_, key, rfl⟩

end Part
end Pico
