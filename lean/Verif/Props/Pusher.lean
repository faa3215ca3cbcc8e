import Verif.Lemmas.Pusher
import Verif.Props.Interp

/-! Properties of the particle pushers. -/

set_option linter.unusedSectionVars false
set_option linter.unusedSimpArgs false
set_option linter.unusedVariables false

namespace Pico
namespace Pusher

open Rel

/-! ### C25, C71: the magnetic field does no work -/

theorem borisRel_rotates (P : Par) (hc : 0 < P.c) (b v : Vec3 ℝ) (hv : v.length2 < P.c ^ 2) :
    ∃ w, borisRel P Vec3.zero b v = .ok w ∧ w.length2 = v.length2 ∧ (b = Vec3.zero → w = v) := by
  obtain ⟨γ, eg, hg, h, E⟩ := boris_eq P hc Vec3.zero b v hv
  dsimp only at E
  rw [smul_zero', add_zero', add_zero'] at E
  refine ⟨_, E, ?_, ?_⟩
  · rw [len2_smul, rotate_norm, len2_smul, speed2_back hc (len2_nonneg v) hg h]
  · intro hb
    rw [hb, smul_zero', smul_zero', rotate_zero, len2_smul, smul_smul', mul_comm γ,
      inv_of_lorenz hc (len2_nonneg v) hg h, smul_one']

theorem borisClassic_rotates (P : Par) (b v : Vec3 ℝ) :
    (borisClassic P Vec3.zero b v).length2 = v.length2 ∧ (b = Vec3.zero → borisClassic P Vec3.zero b v = v) := by
  unfold borisClassic
  dsimp only
  rw [smul_zero', add_zero', add_zero']
  refine ⟨rotate_norm _ _, fun hb => ?_⟩
  rw [hb, smul_zero', rotate_zero]

/-- C71 for the Boris pushers (classic, relativistic, adaptive with any value of the uninitialised flag):
without an electric field the speed of a particle slower than light stays the same, and without any field
its velocity does. -/
theorem C71_boris (kind : Kind) (hk : kind = .boris ∨ kind = .borisRelativistic ∨ kind = .borisAdaptive)
    (P : Par) (junk : Bool) (hc : 0 < P.c) (b v : Vec3 ℝ) (hv : v.length2 < P.c ^ 2) :
    ∃ w, pushV kind P junk Vec3.zero b v = .ok w ∧ w.length2 = v.length2 ∧ (b = Vec3.zero → w = v) := by
  rcases hk with rfl | rfl | rfl
  · exact ⟨_, rfl, borisClassic_rotates P b v⟩
  · exact borisRel_rotates P hc b v hv
  · show ∃ w, borisAdaptive P junk Vec3.zero b v = .ok w ∧ _
    unfold borisAdaptive
    dsimp only
    generalize (if v.x ^ 2 + v.y ^ 2 + v.z ^ 2 > P.lim then true else junk) = u
    cases u
    · exact ⟨_, rfl, borisClassic_rotates P b v⟩
    · exact borisRel_rotates P hc b v hv

/-- C71 at the level of a domain: if the electric field vanishes at all nodes, a particle inside the domain
(and at least half a cell away from the axis) keeps its speed, whatever the magnetic field. -/
theorem C71_boris_domain (kind : Kind) (hk : kind = .boris ∨ kind = .borisRelativistic ∨ kind = .borisAdaptive)
    (P : Par) (junk : Bool) (hc : 0 < P.c) {pi : ℝ} (hpi : 0 < pi) {g : Geom ℝ} (G : g.Good) {r z : ℝ}
    (hin : g.Contains r z) (hr : g.dr / 2 ≤ r) (m : Yee.Mem ℝ)
    (h1 : ∀ i k, m .er i k = 0) (h2 : ∀ i k, m .ep i k = 0) (h3 : ∀ i k, m .ez i k = 0)
    (v : Vec3 ℝ) (hv : v.length2 < P.c ^ 2) :
    ∃ w, push kind P junk pi g m r z v = .ok w ∧ w.length2 = v.length2 := by
  have e1 : m .er = fun _ _ => 0 := by funext a b; exact h1 a b
  have e2 : m .ep = fun _ _ => 0 := by funext a b; exact h2 a b
  have e3 : m .ez = fun _ _ => 0 := by funext a b; exact h3 a b
  unfold push
  rw [Interp.C23_electric_partial hpi G hin hr, Interp.C23_magnetic hpi G hin hr, Res.ok_bind, Res.ok_bind,
    e1, e2, e3, Interp.seen_uniform (Interp.around10 G hin hr), Interp.seen_uniform (Interp.around00 G hin hr),
    Interp.seen_uniform (Interp.around01 G hin hr)]
  simp only [mul_zero, sub_zero, add_zero]
  obtain ⟨w, e, h, _⟩ := C71_boris kind hk P junk hc
    ⟨Interp.seen g 0 (1/2) (m .fr) r z, Interp.seen g (1/2) (1/2) (m .fp) r z, Interp.seen g (1/2) 0 (m .fz) r z⟩ v hv
  exact ⟨w, e, h⟩

theorem cross_norm (g : ℝ) (b u : Vec3 ℝ) :
    (vayFirst g Vec3.zero b u).length2 = u.length2 + g ^ 2 * (u.length2 * b.length2 - u.dot b ^ 2) ∧
    (vayFirst g Vec3.zero b u).dot b = u.dot b := by
  rw [vayFirst, add_zero']
  unfold Vec3.length2 Vec3.dot
  constructor <;> (dsimp only; ring)

theorem dot_smul (u b : Vec3 ℝ) (a : ℝ) : u.dot (b.smul a) = a * u.dot b := by
  unfold Vec3.dot Vec3.smul; ring

/-- C25 for the Vay pusher in units in which the speed of light is 1. -/
theorem C25_vay_partial (P : Par) (junk : Bool) (hc : P.c = 1) (b v : Vec3 ℝ) (hv : v.length2 < P.c ^ 2) :
    ∃ w, pushV .vay P junk Vec3.zero b v = .ok w ∧ w.length2 = v.length2 := by
  have hc0 : 0 < P.c := by rw [hc]; exact one_pos
  obtain ⟨γ, a, eg, hg, h, ha, hq, E⟩ := vay_eq P hc0 Vec3.zero b v hv
  rw [smul_zero'] at hq E
  refine ⟨_, E, ?_⟩
  set u := v.smul γ with hu
  set B := b.smul (P.k * P.mu) with hB
  set g := lorenzFactorInv P.c u.length2 with hgd
  have gg : g * γ = 1 := by rw [hgd, hu, len2_smul]; exact inv_of_lorenz hc0 (len2_nonneg v) hg h
  have hu2 : u.length2 = γ ^ 2 * v.length2 := by rw [hu, len2_smul]
  obtain ⟨n1, n2⟩ := cross_norm g B u
  have hp := vayHalf_norm (B.smul a) (vayFirst g Vec3.zero B u)
  rw [dot_smul, len2_smul, n1, n2] at hp
  rw [n1, n2] at hq
  set X := u.length2
  set Y := B.length2
  set D := u.dot B
  have hY : 0 ≤ Y := len2_nonneg B
  have g1 : g ^ 2 * (1 + X) = 1 := by
    rw [hc] at h
    have : 1 + X = γ ^ 2 := by rw [hu2]; linear_combination -h
    rw [this]
    linear_combination (g * γ + 1) * gg
  -- the new factor is the old one
  have key := cmp_id _ _ a (g ^ 2) hq
  have z : 1 - (1 + (X + g ^ 2 * (X * Y - D ^ 2)) - Y) * g ^ 2 - (Y + D ^ 2) * (g ^ 2) ^ 2 = 0 := by
    linear_combination (-1 - g ^ 2 * Y) * g1
  rw [z, mul_zero] at key
  have pos : 0 < 1 + (Y + D ^ 2) * g ^ 2 * a ^ 2 := by positivity
  have ag : a ^ 2 = g ^ 2 := by
    rcases mul_eq_zero.mp key.symm with k | k
    · linarith
    · linarith
  set p := vayHalf (B.smul a) (vayFirst g Vec3.zero B u)
  have hpX : p.length2 = X := by
    rw [ag] at hp
    have d : (1 + g ^ 2 * Y) ≠ 0 := by positivity
    apply mul_right_cancel₀ d
    rw [hp, mul_pow, ag]
    ring
  rw [len2_smul, hpX, hu2]
  exact speed2_back hc0 (len2_nonneg v) hg h

/-- C25 fails for the Vay pusher: in any units in which the speed of light exceeds 1 (as in SI units) a
magnetic field perpendicular to the velocity makes every moving particle faster. -/
theorem C25_vay_fails (P : Par) (junk : Bool) (hc : 1 < P.c) (b v : Vec3 ℝ) (hv : v.length2 < P.c ^ 2)
    (hv0 : v ≠ Vec3.zero) (hb : b ≠ Vec3.zero) (hk : P.k * P.mu ≠ 0) (hperp : v.dot b = 0) :
    ∃ w, pushV .vay P junk Vec3.zero b v = .ok w ∧ v.length2 < w.length2 := by
  have hc0 : 0 < P.c := by linarith
  obtain ⟨γ, a, eg, hg, h, ha, hq, E⟩ := vay_eq P hc0 Vec3.zero b v hv
  rw [smul_zero'] at hq E
  refine ⟨_, E, ?_⟩
  set u := v.smul γ with hu
  set B := b.smul (P.k * P.mu) with hB
  set g := lorenzFactorInv P.c u.length2 with hgd
  have gg : g * γ = 1 := by rw [hgd, hu, len2_smul]; exact inv_of_lorenz hc0 (len2_nonneg v) hg h
  have hu2 : u.length2 = γ ^ 2 * v.length2 := by rw [hu, len2_smul]
  have hD : u.dot B = 0 := by
    rw [hB, dot_smul]
    have : u.dot b = γ * v.dot b := by rw [hu]; unfold Vec3.dot Vec3.smul; ring
    rw [this, hperp]; ring
  obtain ⟨n1, n2⟩ := cross_norm g B u
  have hp := vayHalf_norm (B.smul a) (vayFirst g Vec3.zero B u)
  rw [dot_smul, len2_smul, n1, n2, hD] at hp
  rw [n1, n2, hD] at hq
  set X := u.length2
  set Y := B.length2
  have hV : 0 < v.length2 := Vec3.length2_pos hv0
  have hX : 0 < X := by rw [hu2]; positivity
  have hY : 0 < Y := by
    have : Y = (P.k * P.mu) ^ 2 * b.length2 := by rw [← len2_smul]
    rw [this]
    have := Vec3.length2_pos hb
    positivity
  have hg0 : 0 < g := by
    by_contra hn
    have : g * γ ≤ 0 := mul_nonpos_of_nonpos_of_nonneg (by linarith) hg.le
    linarith
  have g1 : 1 < g ^ 2 * (1 + X) := by
    have e : g ^ 2 * γ ^ 2 = 1 := by linear_combination (g * γ + 1) * gg
    have k : γ ^ 2 < 1 + X := by
      have hcc : 1 < P.c ^ 2 := by nlinarith
      have e1 : γ ^ 2 * P.c ^ 2 = P.c ^ 2 + X := by rw [hu2]; linear_combination h
      nlinarith
    calc (1 : ℝ) = g ^ 2 * γ ^ 2 := e.symm
      _ < g ^ 2 * (1 + X) := mul_lt_mul_of_pos_left k (by positivity)
  have key := cmp_id _ _ a (g ^ 2) hq
  have z : 1 - (1 + (X + g ^ 2 * (X * Y - 0 ^ 2)) - Y) * g ^ 2 - (Y + 0 ^ 2) * (g ^ 2) ^ 2 =
      (1 + g ^ 2 * Y) * (1 - g ^ 2 * (1 + X)) := by ring
  rw [z] at key
  have pos : 0 < 1 + (Y + 0 ^ 2) * g ^ 2 * a ^ 2 := by positivity
  have neg : a ^ 2 * ((1 + g ^ 2 * Y) * (1 - g ^ 2 * (1 + X))) < 0 :=
    mul_neg_of_pos_of_neg (by positivity) (mul_neg_of_pos_of_neg (by positivity) (by linarith))
  have ag : a ^ 2 < g ^ 2 := by
    rw [key] at neg
    by_contra hn
    have : 0 ≤ (a ^ 2 - g ^ 2) * (1 + (Y + 0 ^ 2) * g ^ 2 * a ^ 2) := mul_nonneg (by linarith) pos.le
    linarith
  set p := vayHalf (B.smul a) (vayFirst g Vec3.zero B u)
  have hpX : X < p.length2 := by
    by_contra hn
    have k1 : p.length2 * (1 + a ^ 2 * Y) ≤ X * (1 + a ^ 2 * Y) :=
      mul_le_mul_of_nonneg_right (by linarith) (by positivity)
    have k2 : X * Y * a ^ 2 < X * Y * g ^ 2 := mul_lt_mul_of_pos_left ag (by positivity)
    rw [hp] at k1
    nlinarith
  rw [len2_smul]
  calc v.length2 = lorenzFactorInv P.c X ^ 2 * X := by
        rw [hu2]; exact (speed2_back hc0 (len2_nonneg v) hg h).symm
    _ < _ := speed2_mono hc0 hX.le hpX

theorem hcRotate_zero (um : Vec3 ℝ) : hcRotate Vec3.zero um = um := by
  unfold hcRotate Vec3.mulV Vec3.zip Vec3.zero
  simp

theorem hcRotate_norm (b um : Vec3 ℝ) (h1 : b.y = b.z) (h2 : b.x ^ 2 = b.z ^ 2) : (hcRotate b um).length2 = um.length2 := by
  unfold hcRotate Vec3.mulV Vec3.zip
  dsimp only
  have hk : 1 / (1 + b.x * b.x + b.y * b.y + b.x * b.x) * (1 + b.x ^ 2 + b.y ^ 2 + b.z ^ 2) = 1 := by
    rw [← h2]
    rw [div_mul_eq_mul_div, one_mul, div_eq_one_iff_eq]
    · ring
    · exact (hc_den b).ne'
  generalize 1 / (1 + b.x * b.x + b.y * b.y + b.x * b.x) = k at hk
  rw [h1] at hk ⊢
  unfold Vec3.length2
  dsimp only
  have h3 : b.x ^ 2 + b.z ^ 2 + b.z ^ 2 = b.x ^ 2 + b.z ^ 2 + b.z ^ 2 := rfl
  linear_combination ((um.x * um.x + um.y * um.y + um.z * um.z) * (k * (1 + b.x ^ 2 + b.z ^ 2 + b.z ^ 2) + 1)) * hk

/-- C25 for the Higuera-Cary pusher, as far as it holds: without fields the velocity stays the same; without
an electric field the speed does if the magnetic field has `H_phi = H_z = ± H_r`. -/
theorem C25_hc_partial (P : Par) (junk : Bool) (hc0 : 0 < P.c) (b v : Vec3 ℝ) (hv : v.length2 < P.c ^ 2)
    (h1 : b.y = b.z) (h2 : b.x ^ 2 = b.z ^ 2) :
    ∃ w, pushV .hc P junk Vec3.zero b v = .ok w ∧ w.length2 = v.length2 ∧ (b = Vec3.zero → w = v) := by
  obtain ⟨γ, a, eg, hg, h, ha, E⟩ := hc_eq P hc0 Vec3.zero b v hv
  dsimp only at E
  rw [smul_zero', add_zero', zero_add'] at E
  refine ⟨_, E, ?_, ?_⟩
  · have : (hcRotate ((b.smul (P.k * P.mu)).smul a) (v.smul γ)).length2 = (v.smul γ).length2 := by
      apply hcRotate_norm
      · simp only [Vec3.smul, h1]
      · simp only [Vec3.smul, mul_pow, h2]
    rw [len2_smul, this, len2_smul, speed2_back hc0 (len2_nonneg v) hg h]
  · intro hb
    rw [hb, smul_zero', smul_zero', hcRotate_zero, len2_smul, smul_smul', mul_comm γ,
      inv_of_lorenz hc0 (len2_nonneg v) hg h, smul_one']

/-- C25 fails for the Higuera-Cary pusher: a radial magnetic field slows down every particle that moves along
it. -/
theorem C25_hc_fails (P : Par) (junk : Bool) (hc0 : 0 < P.c) (h x : ℝ) (hx : x ≠ 0) (hlt : x * x < P.c ^ 2)
    (hh : h ≠ 0) (hk : P.k * P.mu ≠ 0) :
    ∃ w, pushV .hc P junk Vec3.zero ⟨h, 0, 0⟩ ⟨x, 0, 0⟩ = .ok w ∧ w.length2 < (⟨x, 0, 0⟩ : Vec3 ℝ).length2 := by
  have hv : (⟨x, 0, 0⟩ : Vec3 ℝ).length2 < P.c ^ 2 := by unfold Vec3.length2; dsimp only; linarith
  obtain ⟨γ, a, eg, hg, hγ, ha, E⟩ := hc_eq P hc0 Vec3.zero ⟨h, 0, 0⟩ ⟨x, 0, 0⟩ hv
  dsimp only at E
  rw [smul_zero', add_zero', zero_add'] at E
  refine ⟨_, E, ?_⟩
  set t := h * (P.k * P.mu) * a with ht
  have t0 : t ≠ 0 := by
    rw [ht]
    exact mul_ne_zero (mul_ne_zero hh hk) ha.ne'
  have tp : 0 < t ^ 2 := by positivity
  set q := (1 + t * t) / (1 + t * t + t * t) with hq
  have hq0 : 0 < q := by rw [hq]; have := mul_self_nonneg t; positivity
  have hq1 : q < 1 := by rw [hq, div_lt_one (by nlinarith)]; nlinarith
  have e : hcRotate (((⟨h, 0, 0⟩ : Vec3 ℝ).smul (P.k * P.mu)).smul a) ((⟨x, 0, 0⟩ : Vec3 ℝ).smul γ) =
      ⟨x * γ * q, 0, 0⟩ := by
    unfold hcRotate Vec3.mulV Vec3.zip Vec3.smul
    dsimp only
    rw [hq, ht]
    simp only [zero_mul, mul_zero, add_zero, sub_zero, zero_add, zero_sub, neg_zero]
    congr 1
    ring
  rw [e, len2_smul]
  have hV : 0 < (⟨x, 0, 0⟩ : Vec3 ℝ).length2 := by unfold Vec3.length2; dsimp only; have := mul_self_pos.mpr hx; linarith
  have hlen : (⟨x * γ * q, 0, 0⟩ : Vec3 ℝ).length2 = q ^ 2 * (γ ^ 2 * (⟨x, 0, 0⟩ : Vec3 ℝ).length2) := by
    unfold Vec3.length2; ring
  calc _ < lorenzFactorInv P.c (γ ^ 2 * (⟨x, 0, 0⟩ : Vec3 ℝ).length2) ^ 2 * (γ ^ 2 * (⟨x, 0, 0⟩ : Vec3 ℝ).length2) := by
        apply speed2_mono hc0 (len2_nonneg _)
        rw [hlen]
        have : 0 < γ ^ 2 * (⟨x, 0, 0⟩ : Vec3 ℝ).length2 := by positivity
        have q2 : q ^ 2 < 1 := by nlinarith
        calc q ^ 2 * (γ ^ 2 * (⟨x, 0, 0⟩ : Vec3 ℝ).length2) < 1 * (γ ^ 2 * (⟨x, 0, 0⟩ : Vec3 ℝ).length2) :=
              mul_lt_mul_of_pos_right q2 this
          _ = _ := one_mul _
    _ = _ := speed2_back hc0 hV.le hg hγ

/-! ### C26, C72: slower than light -/

/-- The relativistic pushers. -/
def Relativistic (kind : Kind) : Prop := kind = .borisRelativistic ∨ kind = .vay ∨ kind = .hc

/-- C72: a push with one of the relativistic pushers of a particle slower than light is defined and gives a
particle slower than light, for all fields. -/
theorem C72_step (kind : Kind) (hk : Relativistic kind) (P : Par) (junk : Bool) (hc : 0 < P.c) (e b v : Vec3 ℝ)
    (hv : v.length2 < P.c ^ 2) : ∃ w, pushV kind P junk e b v = .ok w ∧ w.length2 < P.c ^ 2 := by
  rcases hk with rfl | rfl | rfl
  · obtain ⟨γ, eg, hg, h, E⟩ := boris_eq P hc e b v hv
    exact ⟨_, E, by rw [len2_smul]; exact inv_lt hc (len2_nonneg _)⟩
  · obtain ⟨γ, a, eg, hg, h, ha, hq, E⟩ := vay_eq P hc e b v hv
    exact ⟨_, E, by rw [len2_smul]; exact inv_lt hc (len2_nonneg _)⟩
  · obtain ⟨γ, a, eg, hg, h, ha, E⟩ := hc_eq P hc e b v hv
    exact ⟨_, E, by rw [len2_smul]; exact inv_lt hc (len2_nonneg _)⟩

/-- C72: after any number of pushes in any fields the particle is still slower than light and the Lorentz
factor of the next push is defined. -/
theorem C72_history (kind : Kind) (hk : Relativistic kind) (P : Par) (junk : Bool) (hc : 0 < P.c)
    (fields : List (Vec3 ℝ × Vec3 ℝ)) (v : Vec3 ℝ) (hv : v.length2 < P.c ^ 2) :
    ∃ w, loop (fun f v => pushV kind P junk f.1 f.2 v) fields v = .ok w ∧ w.length2 < P.c ^ 2 ∧
      ∃ γ, lorenzFactor P.c w.length2 = .ok γ := by
  induction fields generalizing v with
  | nil =>
    obtain ⟨γ, e, _⟩ := lorenz_lt hc hv
    exact ⟨v, rfl, hv, γ, e⟩
  | cons f fs ih =>
    obtain ⟨w, e, hw⟩ := C72_step kind hk P junk hc f.1 f.2 v hv
    rw [loop_cons, e, Res.ok_bind]
    exact ih w hw

/-- C26 fails for the default, adaptive pusher (and for the classic one): every particle slower than the
switch is pushed beyond the speed of light by some electric field when the uninitialised flag is false, and
then the next push aborts the program, if the switch is below the speed of light. -/
theorem C26_adaptive_fails (P : Par) (hc : 0 < P.c) (hk : P.k ≠ 0) (hl : P.lim < P.c ^ 2) (v : Vec3 ℝ)
    (hv : v.length2 ≤ P.lim) :
    ∃ e w, pushV .borisAdaptive P false e Vec3.zero v = .ok w ∧ pushV .boris P false e Vec3.zero v = .ok w ∧
      P.c ^ 2 < w.length2 ∧ ∀ junk e' b', pushV .borisAdaptive P junk e' b' w = .fatal := by
  have e0 : borisClassic P ⟨(2 * P.c - v.x) / (2 * P.k), 0, 0⟩ Vec3.zero v = ⟨2 * P.c, v.y, v.z⟩ := by
    unfold borisClassic
    dsimp only
    rw [smul_zero', rotate_zero]
    unfold Vec3.add Vec3.zip Vec3.smul
    dsimp only
    congr 1
    · field_simp; ring
    · ring
    · ring
  have big : P.c ^ 2 < (⟨2 * P.c, v.y, v.z⟩ : Vec3 ℝ).length2 := by
    unfold Vec3.length2
    dsimp only
    have := mul_self_nonneg v.y; have := mul_self_nonneg v.z
    nlinarith
  refine ⟨⟨(2 * P.c - v.x) / (2 * P.k), 0, 0⟩, ⟨2 * P.c, v.y, v.z⟩, ?_, ?_, big, ?_⟩
  · show borisAdaptive _ _ _ _ _ = _
    rw [adaptive_slow _ _ _ _ _ hv, e0]
    rfl
  · show Res.ok _ = _
    rw [e0]
  · intro junk e' b'
    show borisAdaptive _ _ _ _ _ = _
    rw [adaptive_fast _ _ _ _ _ (hl.trans big)]
    unfold borisRel
    dsimp only
    rw [lorenz_gt hc big]
    rfl

/-! ### C27: determined by state and fields -/

/-- C27, as far as it holds: above the switch the result of the adaptive pusher does not depend on the
uninitialised flag and is that of the relativistic one; the other pushers read no uninitialised memory. -/
theorem C27_fast_partial (P : Par) (junk : Bool) (e b v : Vec3 ℝ) (hv : P.lim < v.length2) :
    pushV .borisAdaptive P junk e b v = pushV .borisRelativistic P junk e b v := by
  exact adaptive_fast P junk e b v hv

/-- C27 fails: for a particle at rest in any electric field the default pusher gives two different results,
depending on what an uninitialised variable happens to contain. -/
theorem C27_indeterminate (P : Par) (hc : 0 < P.c) (hk : P.k ≠ 0) (hl : 0 ≤ P.lim) (e : Vec3 ℝ) (he : e ≠ Vec3.zero) :
    pushV .borisAdaptive P true e Vec3.zero Vec3.zero ≠ pushV .borisAdaptive P false e Vec3.zero Vec3.zero := by
  show borisAdaptive _ _ _ _ _ ≠ borisAdaptive _ _ _ _ _
  have hz : (Vec3.zero : Vec3 ℝ).length2 ≤ P.lim := by simpa [Vec3.length2, Vec3.zero] using hl
  rw [adaptive_slow _ _ _ _ _ hz, adaptive_slow _ _ _ _ _ hz, if_pos rfl, if_neg Bool.false_ne_true]
  obtain ⟨γ, eg, hg, h, E⟩ := boris_eq P hc e Vec3.zero Vec3.zero (by simp [Vec3.length2, Vec3.zero]; positivity)
  dsimp only at E
  rw [smul_zero', smul_zero', smul_zero', rotate_zero, zero_add'] at E
  rw [E]
  unfold borisClassic
  dsimp only
  rw [smul_zero', rotate_zero, zero_add']
  set p := (e.smul P.k).add (e.smul P.k) with hp
  intro hne
  injection hne with hne
  have hp2 : 0 < p.length2 := by
    have : p.length2 = (2 * P.k) ^ 2 * e.length2 := by
      rw [hp]; unfold Vec3.length2 Vec3.add Vec3.zip Vec3.smul; ring
    rw [this]
    have := Vec3.length2_pos he
    positivity
  have l := congrArg Vec3.length2 hne
  rw [len2_smul] at l
  have s := inv_spec hc hp2.le
  have : lorenzFactorInv P.c p.length2 ^ 2 = 1 := mul_right_cancel₀ hp2.ne' (by rw [l, one_mul])
  rw [this] at s
  linarith [s.2]

/-! ### C55, C71: the push is the Lorentz force -/

/-- C71 for the classic Boris pusher: the velocity changes by charge over mass times the time step times
`E + mu (v + v')/2 x H`. -/
theorem C71_lorentz_classic (P : Par) (junk : Bool) (hm : P.mass ≠ 0) (e h v : Vec3 ℝ) :
    ∃ w, pushV .boris P junk e h v = .ok w ∧
      w.sub v = (e.add ((((v.add w).smul (1/2)).cross h).1.smul P.mu)).smul (P.charge * P.dt / P.mass) := by
  refine ⟨_, rfl, ?_⟩
  have hkk : P.charge * P.dt / P.mass = 2 * P.k := by unfold Par.k; field_simp
  rw [hkk]
  unfold borisClassic
  dsimp only
  set E := e.smul P.k with hE
  set B := h.smul (P.k * P.mu) with hB
  have R := rotate_eq B (v.add E)
  set R1 := rotate B (v.add E)
  have rx := congrArg Vec3.x R
  have ry := congrArg Vec3.y R
  have rz := congrArg Vec3.z R
  simp only [Vec3.add, Vec3.sub, Vec3.zip, Vec3.cross, Vec3.smul, hE, hB] at rx ry rz ⊢
  congr 1
  · linear_combination rx
  · linear_combination ry
  · linear_combination rz

/-- C71 for the relativistic Boris pusher, for the momentum per mass `u = gamma v`: it changes by charge over
mass times the time step times `E + mu (u + u')/2 / gamma_m x H`, where `gamma_m` is the Lorentz factor of the
momentum after half of the electric kick. -/
theorem C71_lorentz_relativistic (P : Par) (junk : Bool) (hc : 0 < P.c) (hm : P.mass ≠ 0) (e h v : Vec3 ℝ)
    (hv : v.length2 < P.c ^ 2) :
    ∃ w γ γ', pushV .borisRelativistic P junk e h v = .ok w ∧ lorenzFactor P.c v.length2 = .ok γ ∧
      lorenzFactor P.c w.length2 = .ok γ' ∧
      let u := v.smul γ
      let u' := w.smul γ'
      let half := u.add (e.smul (P.charge * P.dt / P.mass / 2))
      ∃ γm, 0 < γm ∧ γm ^ 2 = 1 + half.length2 / P.c ^ 2 ∧
      u'.sub u = (e.add ((((u.add u').smul (1 / (2 * γm))).cross h).1.smul P.mu)).smul (P.charge * P.dt / P.mass) := by
  obtain ⟨γ, eg, hg, hγ, E⟩ := boris_eq P hc e h v hv
  dsimp only at E
  set um := (v.smul γ).add (e.smul P.k) with hum
  set gi := lorenzFactorInv P.c um.length2 with hgi
  set p := (rotate ((h.smul (P.k * P.mu)).smul gi) um).add (e.smul P.k) with hp
  obtain ⟨γ', eg', hgg⟩ := lorenz_of_inv hc (len2_nonneg p)
  refine ⟨_, γ, γ', E, eg, by rw [len2_smul]; exact eg', ?_⟩
  have back : (p.smul (lorenzFactorInv P.c p.length2)).smul γ' = p := by
    rw [smul_smul', mul_comm, hgg, smul_one']
  dsimp only
  rw [back]
  have hkk : P.charge * P.dt / P.mass = 2 * P.k := by unfold Par.k; field_simp
  rw [hkk]
  have h2 : 2 * P.k / 2 = P.k := by ring
  rw [h2, ← hum]
  have gs := inv_spec hc (len2_nonneg um)
  rw [← hgi] at gs
  refine ⟨1 / gi, by have := gs.1; positivity, ?_, ?_⟩
  · have := gs.1.ne'
    have := hc.ne'
    field_simp
    linear_combination -gs.2
  · have e3 : 1 / (2 * (1 / gi)) = gi / 2 := by have := gs.1.ne'; field_simp
    rw [e3]
    have R := rotate_eq ((h.smul (P.k * P.mu)).smul gi) um
    rw [hp]
    set R1 := rotate ((h.smul (P.k * P.mu)).smul gi) um
    have rx := congrArg Vec3.x R
    have ry := congrArg Vec3.y R
    have rz := congrArg Vec3.z R
    rw [hum] at rx ry rz
    simp only [Vec3.add, Vec3.sub, Vec3.zip, Vec3.cross, Vec3.smul] at rx ry rz ⊢
    congr 1
    · linear_combination rx
    · linear_combination ry
    · linear_combination rz

/-- C55 for the Vay pusher, in units in which the speed of light is 1: the momentum per mass changes by charge
over mass times the time step times `E + mu (v + v')/2 x H`. -/
theorem C55_vay_partial (P : Par) (junk : Bool) (hc : P.c = 1) (hm : P.mass ≠ 0) (e h v : Vec3 ℝ)
    (hv : v.length2 < P.c ^ 2) :
    ∃ w γ γ', pushV .vay P junk e h v = .ok w ∧ lorenzFactor P.c v.length2 = .ok γ ∧
      lorenzFactor P.c w.length2 = .ok γ' ∧
      (w.smul γ').sub (v.smul γ) =
        (e.add ((((v.add w).smul (1/2)).cross h).1.smul P.mu)).smul (P.charge * P.dt / P.mass) := by
  have hc0 : 0 < P.c := by rw [hc]; exact one_pos
  obtain ⟨γ, a, eg, hg, hγ, ha, hq, E⟩ := vay_eq P hc0 e h v hv
  set g := lorenzFactorInv P.c (v.smul γ).length2 with hgd
  set B := h.smul (P.k * P.mu) with hB
  set up := vayFirst g (e.smul (2 * P.k)) B (v.smul γ) with hup
  set p := vayHalf (B.smul a) up with hp
  obtain ⟨γ', eg', hgg⟩ := lorenz_of_inv hc0 (len2_nonneg p)
  refine ⟨_, γ, γ', E, eg, by rw [len2_smul]; exact eg', ?_⟩
  have back : (p.smul (lorenzFactorInv P.c p.length2)).smul γ' = p := by
    rw [smul_smul', mul_comm, hgg, smul_one']
  rw [back]
  have hkk : P.charge * P.dt / P.mass = 2 * P.k := by unfold Par.k; field_simp
  rw [hkk]
  have gg : (v.smul γ).smul g = v := by
    rw [smul_smul', mul_comm, hgd, len2_smul, inv_of_lorenz hc0 (len2_nonneg v) hg hγ, smul_one']
  -- the factor `a` is the inverse Lorentz factor of the result
  have hn := vayHalf_norm (B.smul a) up
  rw [dot_smul, len2_smul, ← hp] at hn
  have hY := len2_nonneg B
  have d : 0 < 1 + a ^ 2 * B.length2 := by positivity
  have a1 : a ^ 2 * (1 + p.length2) = 1 := by
    apply mul_right_cancel₀ d.ne'
    linear_combination a ^ 2 * hn - hq
  have ai : lorenzFactorInv P.c p.length2 = a := by
    have s := inv_spec hc0 (len2_nonneg p)
    apply sq_inj s.1 ha
    rw [hc] at s ⊢
    have hp0 := len2_nonneg p
    have : 1 + p.length2 ≠ 0 := by positivity
    apply mul_right_cancel₀ this
    linear_combination s.2 - a1
  rw [ai]
  have H := vayHalf_eq (B.smul a) up
  rw [← hp, hup, vayFirst_eq, gg] at H
  have rx := congrArg Vec3.x H
  have ry := congrArg Vec3.y H
  have rz := congrArg Vec3.z H
  rw [hB] at rx ry rz
  simp only [Vec3.add, Vec3.sub, Vec3.zip, Vec3.cross, Vec3.smul] at rx ry rz ⊢
  congr 1
  · linear_combination rx
  · linear_combination ry
  · linear_combination rz

/-! ### Concrete cases -/

/-- Units with `c = 5`, switch at speed 1. -/
noncomputable def exP : Par := ⟨5, 1, 1, 2, 1, 1⟩
theorem exP_k : exP.k = 1 := by norm_num [Par.k, exP]

example := C71_boris .borisRelativistic (Or.inr (Or.inl rfl)) exP false (by norm_num [exP]) ⟨1, 2, 3⟩ ⟨1, 2, -2⟩
  (by norm_num [exP, Vec3.length2])
example : rotate ⟨1, 0, 0⟩ ⟨0, 1, 0⟩ = ⟨0, 0, -1⟩ := by norm_num [rotate, Vec3.length2]
noncomputable def exPG : Geom ℝ := ⟨1, 1, 0, 0, 3, 5⟩
theorem exPG_good : exPG.Good := ⟨by norm_num [exPG], by norm_num [exPG], by decide, by decide⟩
theorem exPG_contains : exPG.Contains (3/2) (1/2) :=
  ⟨by norm_num [exPG], by norm_num [exPG], by norm_num [exPG], by norm_num [exPG]⟩
example := C71_boris_domain .borisAdaptive (Or.inr (Or.inr rfl)) exP false (by norm_num [exP]) Real.pi_pos
  exPG_good exPG_contains (by norm_num [exPG]) (fun c i k => if c = .fz then 7 else 0)
  (fun _ _ => rfl) (fun _ _ => rfl) (fun _ _ => rfl) ⟨1, 2, -2⟩ (by norm_num [exP, Vec3.length2])
example := C25_vay_partial ⟨1, 1, 1, 2, 1, 1⟩ false rfl ⟨1, 2, 3⟩ ⟨1/2, 0, 1/2⟩ (by norm_num [Vec3.length2])
example := C25_vay_fails exP false (by norm_num [exP]) ⟨0, 0, 1⟩ ⟨3, 0, 0⟩ (by norm_num [exP, Vec3.length2])
  (by simp [Vec3.zero]) (by simp [Vec3.zero]) (by rw [exP_k]; norm_num [exP]) (by norm_num [Vec3.dot])
example := C25_hc_partial exP false (by norm_num [exP]) ⟨-1, 1, 1⟩ ⟨3, 1, 2⟩ (by norm_num [exP, Vec3.length2]) rfl (by norm_num)
example := C25_hc_fails exP false (by norm_num [exP]) 1 3 (by norm_num) (by norm_num [exP]) (by norm_num)
  (by rw [exP_k]; norm_num [exP])
example := C72_history .vay (Or.inr (Or.inl rfl)) exP false (by norm_num [exP]) [(⟨1, 2, 3⟩, ⟨0, 1, 0⟩), (⟨9, 9, 9⟩, ⟨1, 1, 1⟩)]
  ⟨3, 0, 0⟩ (by norm_num [exP, Vec3.length2])
example := C26_adaptive_fails exP (by norm_num [exP]) (by rw [exP_k]; norm_num) (by norm_num [exP]) ⟨1/2, 0, 1/2⟩
  (by norm_num [exP, Vec3.length2])
example := C27_fast_partial exP false ⟨1, 2, 3⟩ ⟨0, 1, 0⟩ ⟨3, 0, 0⟩ (by norm_num [exP, Vec3.length2])
example := C27_indeterminate exP (by norm_num [exP]) (by rw [exP_k]; norm_num) (by norm_num [exP]) ⟨1, 0, 0⟩ (by simp [Vec3.zero])
example := C71_lorentz_classic exP false (by norm_num [exP]) ⟨1, 2, 3⟩ ⟨0, 1, 0⟩ ⟨3, 0, 0⟩
example := C71_lorentz_relativistic exP false (by norm_num [exP]) (by norm_num [exP]) ⟨1, 2, 3⟩ ⟨0, 1, 0⟩ ⟨3, 0, 0⟩
  (by norm_num [exP, Vec3.length2])
example := C55_vay_partial ⟨1, 1, 1, 2, 1, 1⟩ false rfl (by norm_num) ⟨1, 2, 3⟩ ⟨0, 1, 0⟩ ⟨1/2, 0, 1/2⟩ (by norm_num [Vec3.length2])

end Pusher
end Pico
